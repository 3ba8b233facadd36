import Verif.Lemmas.Parse
/-!
# Records and files
-/

namespace Verif
open Spec

/-- A stream that has not failed; the end has been seen only if nothing is left. -/
def Stream.Ok (s : Stream) : Prop := s.fail = false ∧ (s.eof = true → s.rest = [])

theorem Stream.ok_after (r : List Char) : Stream.Ok ⟨r, r.isEmpty, false⟩ := by
  refine ⟨rfl, ?_⟩
  intro h
  simpa using h

theorem Stream.ok_open (t : List Char) : Stream.Ok ⟨t, false, false⟩ := ⟨rfl, by simp⟩

theorem sentry_some {s : Stream} (h : s.Ok) {w r : List Char} {c : Char} (hw : Blanks w) (hr : s.rest = w ++ c :: r)
    (hc : ¬ IsBlank c) : s.sentry = (true, ⟨c :: r, false, false⟩) := by
  obtain ⟨t, e, f⟩ := s
  obtain ⟨h1, h2⟩ := h
  simp only at h1 h2 hr
  subst h1
  have he : e = false := by
    cases e
    · rfl
    · rw [h2 rfl] at hr; simp at hr
  subst he
  have hd : t.dropWhile isBlank = c :: r := by
    rw [hr]
    exact blanks_skip hw (by intro c' cs h; injection h with h _; rw [← h]; exact hc)
  simp [Stream.sentry, Stream.good, hd]

theorem sentry_ok {s : Stream} (h : s.sentry.1 = true) :
    ∃ (w : List Char) (c : Char) (r : List Char), Blanks w ∧ s.rest = w ++ c :: r ∧ ¬ IsBlank c ∧
      s.sentry = (true, ⟨c :: r, false, false⟩) := by
  obtain ⟨h1, h2, h3⟩ := span_split isBlank s.rest
  unfold Stream.sentry at h ⊢
  split
  · rename_i hg
    rw [if_pos hg] at h
    split
    · rename_i hd
      rw [hd] at h
      cases h
    · rename_i c cs hd
      refine ⟨s.rest.takeWhile isBlank, c, cs, ?_, ?_, ?_, rfl⟩
      · intro x hx; exact (isBlank_iff _).mp (h2 x hx)
      · rw [hd] at h1; exact h1
      · intro hb
        have := h3 c cs hd
        rw [(isBlank_iff _).mpr hb] at this
        cases this
  · rename_i hg
    rw [if_neg hg] at h
    cases h

theorem sentry_fail {s : Stream} (h : s.sentry.1 = false) : s.sentry.2.fail = true := by
  unfold Stream.sentry at h ⊢
  split
  · rename_i hg
    rw [if_pos hg] at h
    split
    · rfl
    · rename_i hd; rw [hd] at h; cases h
  · rfl

theorem sentry_of_fail {s : Stream} (h : s.fail = true) : s.sentry.1 = false := by
  simp [Stream.sentry, Stream.good, h]

/-! ## Extractions -/

theorem float_head {x : List Char} {v : ℚ} (h : IsFloat x v) : ∃ c r, x = c :: r ∧ ¬ IsBlank c := by
  obtain ⟨s, i, f, d, e, k, hi, hd, hm, hfd, hE, rfl, hv⟩ := h
  have hdig : ∀ {c : Char}, IsDigit c → ¬ IsBlank c := by
    intro c hc hb
    obtain ⟨h1, h2⟩ := hc
    rcases hb with rfl | rfl | rfl | rfl | rfl | rfl <;> revert h1 <;> decide
  have hs : s = [] ∨ s = ['+'] ∨ s = ['-'] := by
    rcases hv with ⟨h, _⟩ | ⟨h, _⟩ <;> rcases h with ⟨h, _⟩ | ⟨h, _⟩ | ⟨h, _⟩ <;> simp [h]
  rcases hs with rfl | rfl | rfl
  · cases i with
    | nil =>
      rcases hfd with ⟨rfl, rfl⟩ | rfl
      · exact absurd rfl hm
      · exact ⟨'.', d ++ e, by simp, by simp [IsBlank]⟩
    | cons c i => exact ⟨c, i ++ f ++ e, by simp, hdig (hi c (by simp))⟩
  · exact ⟨'+', i ++ f ++ e, by simp, by simp [IsBlank]⟩
  · exact ⟨'-', i ++ f ++ e, by simp, by simp [IsBlank]⟩

theorem count_head {x : List Char} {v : Nat} (h : IsCount x v) : ∃ c r, x = c :: r ∧ ¬ IsBlank c := by
  obtain ⟨s, y, hi, hm, _, rfl, hv⟩ := h
  have hdig : ∀ {c : Char}, IsDigit c → ¬ IsBlank c := by
    intro c hc hb
    obtain ⟨h1, h2⟩ := hc
    rcases hb with rfl | rfl | rfl | rfl | rfl | rfl <;> revert h1 <;> decide
  have hs : s = [] ∨ s = ['+'] ∨ s = ['-'] := by
    rcases hv with ⟨h, _⟩ | ⟨h, _⟩ <;> rcases h with ⟨h, _⟩ | ⟨h, _⟩ | ⟨h, _⟩ <;> simp [h]
  rcases hs with rfl | rfl | rfl
  · cases y with
    | nil => exact absurd rfl hm
    | cons c i => exact ⟨c, i, by simp, hdig (hi c (by simp))⟩
  · exact ⟨'+', y, by simp, by simp [IsBlank]⟩
  · exact ⟨'-', y, by simp, by simp [IsBlank]⟩

theorem getDouble_some {s : Stream} (h : s.Ok) {w x r : List Char} {v : ℚ} (hw : Blanks w) (hr : s.rest = w ++ (x ++ r))
    (hx : IsFloat x v) (he : FloatEnds x r) (old : ℚ) : s.getDouble old = (⟨r, r.isEmpty, false⟩, v) := by
  obtain ⟨c, y, rfl, hc⟩ := float_head hx
  have := sentry_some h hw (by rw [hr, List.cons_append]) hc
  have hs : scanFloat (c :: (y ++ r)) = (some v, r) := scanFloat_iff.mpr ⟨c :: y, rfl, hx, he⟩
  simp [Stream.getDouble, this, hs]

theorem getDouble_ok {s : Stream} {old : ℚ} (h : (s.getDouble old).1.fail = false) :
    ∃ (w x r : List Char) (v : ℚ), Blanks w ∧ s.rest = w ++ (x ++ r) ∧ IsFloat x v ∧ FloatEnds x r ∧
      s.getDouble old = (⟨r, r.isEmpty, false⟩, v) := by
  cases hs : s.sentry.1 with
  | false =>
    have h1 := sentry_fail hs
    have : s.getDouble old = (s.sentry.2, old) := by
      unfold Stream.getDouble
      generalize s.sentry = p at hs
      obtain ⟨b, s'⟩ := p
      simp only at hs
      subst hs
      rfl
    rw [this, h1] at h
    cases h
  | true =>
    obtain ⟨w, c, r, hw, hr, hc, hse⟩ := sentry_ok hs
    cases hv : (scanFloat (c :: r)).1 with
    | none =>
      simp [Stream.getDouble, hse, hv] at h
    | some v =>
      have hsc : scanFloat (c :: r) = (some v, (scanFloat (c :: r)).2) := by rw [← hv]
      obtain ⟨x, hx1, hx2, hx3⟩ := scanFloat_iff.mp hsc
      refine ⟨w, x, _, v, hw, hr.trans (congrArg (w ++ ·) hx1), hx2, hx3, ?_⟩
      simp [Stream.getDouble, hse, hv]

theorem getDouble_fail {s : Stream} {old : ℚ} (h : s.fail = true) : (s.getDouble old).1.fail = true := by
  cases hf : (s.getDouble old).1.fail with
  | true => rfl
  | false =>
    have hs := sentry_of_fail h
    have h1 := sentry_fail hs
    rw [← hf]
    unfold Stream.getDouble
    generalize s.sentry = p at hs h1
    obtain ⟨b, s'⟩ := p
    simp only at hs
    subst hs
    exact h1

theorem getUShort_some {s : Stream} (h : s.Ok) {w x r : List Char} {v : Nat} (hw : Blanks w) (hr : s.rest = w ++ (x ++ r))
    (hx : IsCount x v) (he : CountEnds r) (old : Nat) : s.getUShort old = (⟨r, r.isEmpty, false⟩, v) := by
  obtain ⟨c, y, rfl, hc⟩ := count_head hx
  have := sentry_some h hw (by rw [hr, List.cons_append]) hc
  have hs : scanUShort (c :: (y ++ r)) = (true, v, r) := scanUShort_iff.mpr ⟨c :: y, rfl, hx, he⟩
  simp [Stream.getUShort, this, hs]

theorem getUShort_ok {s : Stream} {old : Nat} (h : (s.getUShort old).1.fail = false) :
    ∃ (w x r : List Char) (v : Nat), Blanks w ∧ s.rest = w ++ (x ++ r) ∧ IsCount x v ∧ CountEnds r ∧
      s.getUShort old = (⟨r, r.isEmpty, false⟩, v) := by
  cases hs : s.sentry.1 with
  | false =>
    have h1 := sentry_fail hs
    have : s.getUShort old = (s.sentry.2, old) := by
      unfold Stream.getUShort
      generalize s.sentry = p at hs
      obtain ⟨b, s'⟩ := p
      simp only at hs
      subst hs
      rfl
    rw [this, h1] at h
    cases h
  | true =>
    obtain ⟨w, c, r, hw, hr, hc, hse⟩ := sentry_ok hs
    cases hv : (scanUShort (c :: r)).1 with
    | false =>
      simp [Stream.getUShort, hse, hv] at h
    | true =>
      have hsc : scanUShort (c :: r) = (true, (scanUShort (c :: r)).2.1, (scanUShort (c :: r)).2.2) := by rw [← hv]
      obtain ⟨x, hx1, hx2, hx3⟩ := scanUShort_iff.mp hsc
      refine ⟨w, x, _, _, hw, hr.trans (congrArg (w ++ ·) hx1), hx2, hx3, ?_⟩
      simp [Stream.getUShort, hse, hv]

theorem getUShort_fail {s : Stream} {old : Nat} (h : s.fail = true) : (s.getUShort old).1.fail = true := by
  have hs := sentry_of_fail h
  have h1 := sentry_fail hs
  unfold Stream.getUShort
  generalize s.sentry = p at hs h1
  obtain ⟨b, s'⟩ := p
  simp only at hs
  subst hs
  exact h1

theorem getChar_some {s : Stream} (h : s.Ok) {w r : List Char} {c : Char} (hw : Blanks w) (hr : s.rest = w ++ c :: r)
    (hc : ¬ IsBlank c) (old : Char) : s.getChar old = (⟨r, false, false⟩, c) := by
  simp [Stream.getChar, sentry_some h hw hr hc]

theorem getChar_ok {s : Stream} {old : Char} (h : (s.getChar old).1.fail = false) :
    ∃ (w r : List Char) (c : Char), Blanks w ∧ s.rest = w ++ c :: r ∧ ¬ IsBlank c ∧
      s.getChar old = (⟨r, false, false⟩, c) := by
  cases hs : s.sentry.1 with
  | false =>
    have h1 := sentry_fail hs
    have : s.getChar old = (s.sentry.2, old) := by
      unfold Stream.getChar
      generalize s.sentry = p at hs
      obtain ⟨b, s'⟩ := p
      simp only at hs
      subst hs
      rfl
    rw [this, h1] at h
    cases h
  | true =>
    obtain ⟨w, c, r, hw, hr, hc, hse⟩ := sentry_ok hs
    exact ⟨w, r, c, hw, hr, hc, by simp [Stream.getChar, hse]⟩

theorem getChar_fail {s : Stream} {old : Char} (h : s.fail = true) : (s.getChar old).1.fail = true := by
  have hs := sentry_of_fail h
  have h1 := sentry_fail hs
  unfold Stream.getChar
  generalize s.sentry = p at hs h1
  obtain ⟨b, s'⟩ := p
  simp only at hs
  subst hs
  exact h1

/-! ## Records -/

/-- A blank or a colon ends a number. -/
theorem ends_colon {w r : List Char} (hw : Blanks w) :
    (∀ x, FloatEnds x (w ++ ':' :: r)) ∧ CountEnds (w ++ ':' :: r) := by
  have key : ∀ c cs, w ++ ':' :: r = c :: cs → IsBlank c ∨ c = ':' := by
    intro c cs h
    cases w with
    | nil =>
      rw [List.nil_append] at h
      injection h with h _
      exact Or.inr h.symm
    | cons d w =>
      rw [List.cons_append] at h
      injection h with h _
      rw [← h]
      exact Or.inl (hw d (by simp))
  have nd : ∀ c, IsBlank c ∨ c = ':' → ¬ IsDigit c ∧ c ≠ '.' ∧ c ≠ 'e' ∧ c ≠ 'E' := by
    intro c hc
    unfold IsDigit
    rcases hc with (rfl | rfl | rfl | rfl | rfl | rfl) | rfl <;> decide
  constructor
  · intro x c cs h
    obtain ⟨h1, h2, h3, h4⟩ := nd c (key c cs h)
    refine ⟨h1, fun h => absurd h h2, ?_⟩
    rintro (h | h)
    · exact absurd h h3
    · exact absurd h h4
  · intro c cs h
    exact (nd c (key c cs h)).1

/-- A location is read exactly if the text begins with one. -/
theorem readLatLong_iff {s : Stream} (h : s.Ok) (c1 : Char) (old r : LatLongRec) (rest : List Char) :
    readLatLong s c1 old = (⟨rest, rest.isEmpty, false⟩, r) ↔ LocationText s.rest r.latitude r.longitude rest := by
  constructor
  · intro hr
    have hf : (readLatLong s c1 old).1.fail = false := by rw [hr]
    have hcolon : (readLatLong s c1 old).1.fail = false → _ := fun h => h
    simp only [readLatLong] at hf hr
    cases h1 : (s.getDouble old.latitude).1.fail with
    | true =>
      exfalso
      have := getDouble_fail (old := old.longitude) (getChar_fail (old := c1) h1)
      split at hf
      · cases hf
      · rw [this] at hf; cases hf
    | false =>
      obtain ⟨w1, x, r1, a, hw1, hs1, hx, hxe, e1⟩ := getDouble_ok h1
      rw [e1] at hf hr
      simp only at hf hr
      cases h2 : ((⟨r1, r1.isEmpty, false⟩ : Stream).getChar c1).1.fail with
      | true =>
        exfalso
        have := getDouble_fail (old := old.longitude) h2
        split at hf
        · cases hf
        · rw [this] at hf; cases hf
      | false =>
        obtain ⟨w2, r2, c, hw2, hs2, hc, e2⟩ := getChar_ok h2
        rw [e2] at hf hr
        simp only at hf hr
        split at hf
        · cases hf
        · rename_i hcc
          have hcc : c = ':' := by simpa using hcc
          rw [if_neg (by simpa using hcc)] at hr
          obtain ⟨w3, y, r3, b, hw3, hs3, hy, hye, e3⟩ := getDouble_ok hf
          rw [e3] at hr
          injection hr with hr1 hr2
          injection hr1 with hr1 _ _
          subst hr1; subst hr2; subst hcc
          refine ⟨w1, x, w2, w3, y, hw1, hw2, hw3, hx, hy, hye, ?_⟩
          simp only at hs2 hs3
          rw [hs1, hs2, hs3]
          simp
  · rintro ⟨w1, x, w2, w3, y, hw1, hw2, hw3, hx, hy, hye, ht⟩
    have hends := ends_colon (r := w3 ++ (y ++ rest)) hw2
    have e1 := getDouble_some h (r := w2 ++ ':' :: (w3 ++ (y ++ rest))) hw1 (by rw [ht]; simp) hx (hends.1 x) old.latitude
    have e2 := getChar_some (s := ⟨w2 ++ ':' :: (w3 ++ (y ++ rest)), _, false⟩) (Stream.ok_after _) hw2 rfl
      (c := ':') (by simp [IsBlank]) c1
    have e3 := getDouble_some (s := ⟨w3 ++ (y ++ rest), false, false⟩) (Stream.ok_open _) hw3 rfl hy hye old.longitude
    simp [readLatLong, e1, e2, e3]

theorem readLatLong_ok {s : Stream} {c1 : Char} {old : LatLongRec} (hf : (readLatLong s c1 old).1.fail = false) :
    ∃ rest r, readLatLong s c1 old = (⟨rest, rest.isEmpty, false⟩, r) := by
  simp only [readLatLong] at hf ⊢
  split at hf
  · cases hf
  · rename_i hc
    rw [if_neg hc]
    obtain ⟨w3, y, r3, b, hw3, hs3, hy, hye, e3⟩ := getDouble_ok hf
    rw [e3]
    exact ⟨r3, _, rfl⟩

/-- An orbit is read exactly if the text begins with one. -/
theorem readOrbit_iff {s : Stream} (h : s.Ok) (c1 c2 c3 : Char) (old r : OrbitTxt) (rest : List Char) :
    readOrbit s c1 c2 c3 old = (⟨rest, rest.isEmpty, false⟩, r) ↔
      OrbitText s.rest r.alt r.inc r.planes r.sats rest := by
  constructor
  · intro hr
    have hf : (readOrbit s c1 c2 c3 old).1.fail = false := by rw [hr]
    simp only [readOrbit] at hf hr
    have g7 : ∀ {s : Stream} {p : Prop} [Decidable p], (if p then { s with fail := true } else s).fail = false →
        ¬ p ∧ s.fail = false := by
      intro s p _ h
      split at h
      · cases h
      · rename_i hp; exact ⟨hp, h⟩
    have hp := (g7 hf).1
    have hall := (g7 hf).2
    rw [if_neg hp] at hr
    -- the flags, backwards
    have f6 := Bool.eq_false_iff.mpr (fun h => Bool.eq_false_iff.mp hall (getUShort_fail (old := old.sats) h))
    have f5 := Bool.eq_false_iff.mpr (fun h => Bool.eq_false_iff.mp f6 (getChar_fail (old := c3) h))
    have f4 := Bool.eq_false_iff.mpr (fun h => Bool.eq_false_iff.mp f5 (getUShort_fail (old := old.planes) h))
    have f3 := Bool.eq_false_iff.mpr (fun h => Bool.eq_false_iff.mp f4 (getChar_fail (old := c2) h))
    have f2 := Bool.eq_false_iff.mpr (fun h => Bool.eq_false_iff.mp f3 (getDouble_fail (old := old.inc) h))
    have f1 := Bool.eq_false_iff.mpr (fun h => Bool.eq_false_iff.mp f2 (getChar_fail (old := c1) h))
    obtain ⟨w1, x, r1, a, hw1, hs1, hx, hxe, e1⟩ := getDouble_ok f1
    rw [e1] at f2 f3 f4 f5 f6 hall hp hr
    obtain ⟨w2, r2, d1, hw2, hs2, hd1, e2⟩ := getChar_ok f2
    rw [e2] at f3 f4 f5 f6 hall hp hr
    obtain ⟨w3, y, r3, b, hw3, hs3, hy, hye, e3⟩ := getDouble_ok f3
    rw [e3] at f4 f5 f6 hall hp hr
    obtain ⟨w4, r4, d2, hw4, hs4, hd2, e4⟩ := getChar_ok f4
    rw [e4] at f5 f6 hall hp hr
    obtain ⟨w5, z, r5, p, hw5, hs5, hz, hze, e5⟩ := getUShort_ok f5
    rw [e5] at f6 hall hp hr
    obtain ⟨w6, r6, d3, hw6, hs6, hd3, e6⟩ := getChar_ok f6
    rw [e6] at hall hp hr
    obtain ⟨w7, q, r7, n, hw7, hs7, hq, hqe, e7⟩ := getUShort_ok hall
    rw [e7] at hr
    injection hr with hr1 hr2
    injection hr1 with hr1 _ _
    simp only [not_or, not_not] at hp
    obtain ⟨hp1, hp2, hp3⟩ := hp
    subst hr1; subst hr2; subst hp1; subst hp2; subst hp3
    refine ⟨w1, x, w2, w3, y, w4, w5, z, w6, w7, q, hw1, hw2, hw3, hw4, hw5, hw6, hw7, hx, hy, hz, hq, hqe, ?_⟩
    simp only at hs2 hs3 hs4 hs5 hs6 hs7
    rw [hs1, hs2, hs3, hs4, hs5, hs6, hs7]
    simp
  · rintro ⟨w1, x, w2, w3, y, w4, w5, p, w6, w7, q, hw1, hw2, hw3, hw4, hw5, hw6, hw7, hx, hy, hp, hq, hqe, ht⟩
    have n1 := ends_colon (r := w3 ++ (y ++ (w4 ++ ':' :: (w5 ++ (p ++ (w6 ++ ':' :: (w7 ++ (q ++ rest)))))))) hw2
    have n2 := ends_colon (r := w5 ++ (p ++ (w6 ++ ':' :: (w7 ++ (q ++ rest))))) hw4
    have n3 := ends_colon (r := w7 ++ (q ++ rest)) hw6
    have hb : ¬ IsBlank ':' := by simp [IsBlank]
    have e1 := getDouble_some h (r := w2 ++ ':' :: (w3 ++ (y ++ (w4 ++ ':' :: (w5 ++ (p ++ (w6 ++ ':' :: (w7 ++ (q ++ rest)))))))))
      hw1 (by rw [ht]; simp) hx (n1.1 x) old.alt
    have e2 := getChar_some (Stream.ok_after (w2 ++ ':' :: (w3 ++ (y ++ (w4 ++ ':' :: (w5 ++ (p ++ (w6 ++ ':' :: (w7 ++ (q ++ rest))))))))))
      hw2 rfl hb c1
    have e3 := getDouble_some (Stream.ok_open (w3 ++ (y ++ (w4 ++ ':' :: (w5 ++ (p ++ (w6 ++ ':' :: (w7 ++ (q ++ rest)))))))))
      hw3 rfl hy (n2.1 y) old.inc
    have e4 := getChar_some (Stream.ok_after (w4 ++ ':' :: (w5 ++ (p ++ (w6 ++ ':' :: (w7 ++ (q ++ rest)))))))
      hw4 rfl hb c2
    have e5 := getUShort_some (Stream.ok_open (w5 ++ (p ++ (w6 ++ ':' :: (w7 ++ (q ++ rest)))))) hw5 rfl hp n3.2 old.planes
    have e6 := getChar_some (Stream.ok_after (w6 ++ ':' :: (w7 ++ (q ++ rest)))) hw6 rfl hb c3
    have e7 := getUShort_some (Stream.ok_open (w7 ++ (q ++ rest))) hw7 rfl hq hqe old.sats
    simp [readOrbit, e1, e2, e3, e4, e5, e6, e7]

theorem readOrbit_ok {s : Stream} {c1 c2 c3 : Char} {old : OrbitTxt} (hf : (readOrbit s c1 c2 c3 old).1.fail = false) :
    ∃ rest r, readOrbit s c1 c2 c3 old = (⟨rest, rest.isEmpty, false⟩, r) := by
  simp only [readOrbit] at hf ⊢
  split at hf
  · cases hf
  · rename_i hc
    rw [if_neg hc]
    obtain ⟨w3, y, r3, b, hw3, hs3, hy, hye, e3⟩ := getUShort_ok hf
    rw [e3]
    exact ⟨r3, _, rfl⟩

/-! ## Files -/

theorem location_shorter {t : List Char} {a b : ℚ} {rest : List Char} (h : LocationText t a b rest) :
    rest.length < t.length := by
  obtain ⟨w1, x, w2, w3, y, _, _, _, _, _, _, rfl⟩ := h
  simp only [List.length_append, List.length_cons, List.length_nil]
  omega

theorem orbit_shorter {t : List Char} {a b : ℚ} {p q : Nat} {rest : List Char} (h : OrbitText t a b p q rest) :
    rest.length < t.length := by
  obtain ⟨w1, x, w2, w3, y, w4, w5, z, w6, w7, u, _, _, _, _, _, _, _, _, _, _, _, _, rfl⟩ := h
  simp only [List.length_append, List.length_cons, List.length_nil]
  omega

theorem readLocations_leading (junk : Nat → Char) : ∀ (n : Nat) (s : Stream) (old : LatLongRec), s.Ok → s.rest.length < n →
    Leading (fun t r rest => LocationText t r.latitude r.longitude rest) s.rest (readLocations junk n s old) := by
  intro n
  induction n with
  | zero => intro s old _ h; omega
  | succ n ih =>
    intro s old hs hn
    cases hf : (readLatLong s (junk n) old).1.fail with
    | true =>
      simp only [readLocations, hf, if_true]
      apply Leading.stop
      rintro ⟨r, rest, hr⟩
      rw [(readLatLong_iff hs (junk n) old r rest).mpr hr] at hf
      cases hf
    | false =>
      obtain ⟨rest, r, e⟩ := readLatLong_ok hf
      have hr := (readLatLong_iff hs (junk n) old r rest).mp e
      have hl := location_shorter hr
      have := ih ⟨rest, rest.isEmpty, false⟩ r (Stream.ok_after rest) (by simp only; omega)
      simp only [readLocations, e]
      exact Leading.more hr this

theorem readOrbits_leading (junk : Nat → Char × Char × Char) : ∀ (n : Nat) (s : Stream) (old : OrbitTxt), s.Ok →
    s.rest.length < n →
    Leading (fun t r rest => OrbitText t r.alt r.inc r.planes r.sats rest) s.rest (readOrbits junk n s old) := by
  intro n
  induction n with
  | zero => intro s old _ h; omega
  | succ n ih =>
    intro s old hs hn
    cases hf : (readOrbit s (junk n).1 (junk n).2.1 (junk n).2.2 old).1.fail with
    | true =>
      simp only [readOrbits, hf, if_true]
      apply Leading.stop
      rintro ⟨r, rest, hr⟩
      rw [(readOrbit_iff hs _ _ _ old r rest).mpr hr] at hf
      cases hf
    | false =>
      obtain ⟨rest, r, e⟩ := readOrbit_ok hf
      have hr := (readOrbit_iff hs _ _ _ old r rest).mp e
      have hl := orbit_shorter hr
      have := ih ⟨rest, rest.isEmpty, false⟩ r (Stream.ok_after rest) (by simp only; omega)
      simp only [readOrbits, e]
      exact Leading.more hr this

/-- A text begins with at most one location record. -/
theorem location_unique {t : List Char} {a b a' b' : ℚ} {rest rest' : List Char} (h : LocationText t a b rest)
    (h' : LocationText t a' b' rest') : a = a' ∧ b = b' ∧ rest = rest' := by
  have e := (readLatLong_iff (Stream.ok_open t) ' ' ⟨0, 0⟩ ⟨a, b⟩ rest).mpr h
  have e' := (readLatLong_iff (Stream.ok_open t) ' ' ⟨0, 0⟩ ⟨a', b'⟩ rest').mpr h'
  rw [e] at e'
  injection e' with e1 e2
  injection e1 with e1 _ _
  injection e2 with e2 e3
  exact ⟨e2, e3, e1⟩

theorem orbit_unique {t : List Char} {a b a' b' : ℚ} {p q p' q' : Nat} {rest rest' : List Char}
    (h : OrbitText t a b p q rest) (h' : OrbitText t a' b' p' q' rest') :
    a = a' ∧ b = b' ∧ p = p' ∧ q = q' ∧ rest = rest' := by
  have e := (readOrbit_iff (Stream.ok_open t) ' ' ' ' ' ' ⟨0, 0, 0, 0⟩ ⟨a, b, p, q⟩ rest).mpr h
  have e' := (readOrbit_iff (Stream.ok_open t) ' ' ' ' ' ' ⟨0, 0, 0, 0⟩ ⟨a', b', p', q'⟩ rest').mpr h'
  rw [e] at e'
  injection e' with e1 e2
  injection e1 with e1 _ _
  injection e2 with e2 e3 e4 e5
  exact ⟨e2, e3, e4, e5, e1⟩

theorem leading_unique {α : Type} {P : List Char → α → List Char → Prop}
    (hP : ∀ t r rest r' rest', P t r rest → P t r' rest' → r = r' ∧ rest = rest') {t : List Char} {a b : List α}
    (ha : Leading P t a) (hb : Leading P t b) : a = b := by
  induction ha generalizing b with
  | stop h =>
    cases hb with
    | stop => rfl
    | more h' _ => exact absurd ⟨_, _, h'⟩ h
  | more h _ ih =>
    cases hb with
    | stop h' => exact absurd ⟨_, _, h⟩ h'
    | more h' hb' =>
      obtain ⟨e1, e2⟩ := hP _ _ _ _ _ h h'
      subst e1; subst e2
      rw [ih hb']

end Verif
