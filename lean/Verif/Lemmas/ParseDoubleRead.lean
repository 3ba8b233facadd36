import Verif.Lemmas.ParseDouble
import Verif.Lemmas.ParseRecord
import Verif.Lemmas.ParseShow
/-!
# Reading records with numbers as `double`
-/

namespace Verif
open Spec

/-- A location record whose numbers are in range, and its value. -/
def Location64 (t : List Char) (r : LatLongRec) (rest : List Char) : Prop :=
  ∃ a b, LocationText t a b rest ∧ toDouble a = some r.latitude ∧ toDouble b = some r.longitude

/-- An orbit record whose numbers are in range, and its value. -/
def Orbit64 (t : List Char) (r : OrbitTxt) (rest : List Char) : Prop :=
  ∃ a b, OrbitText t a b r.planes r.sats rest ∧ toDouble a = some r.alt ∧ toDouble b = some r.inc

theorem getDouble64_some {s : Stream} (h : s.Ok) {w x r : List Char} {v d : ℚ} (hw : Blanks w) (hr : s.rest = w ++ (x ++ r))
    (hx : IsFloat x v) (he : FloatEnds x r) (hd : toDouble v = some d) (old : ℚ) :
    s.getDouble64 old = (⟨r, r.isEmpty, false⟩, d) := by
  obtain ⟨c, y, rfl, hc⟩ := float_head hx
  have := sentry_some h hw (by rw [hr, List.cons_append]) hc
  have hs : scanFloat (c :: (y ++ r)) = (some v, r) := scanFloat_iff.mpr ⟨c :: y, rfl, hx, he⟩
  simp [Stream.getDouble64, this, hs, hd]

theorem getDouble64_ok {s : Stream} {old : ℚ} (h : (s.getDouble64 old).1.fail = false) :
    ∃ (w x r : List Char) (v d : ℚ), Blanks w ∧ s.rest = w ++ (x ++ r) ∧ IsFloat x v ∧ FloatEnds x r ∧
      toDouble v = some d ∧ s.getDouble64 old = (⟨r, r.isEmpty, false⟩, d) := by
  cases hs : s.sentry.1 with
  | false =>
    have h1 := sentry_fail hs
    have : s.getDouble64 old = (s.sentry.2, old) := by
      unfold Stream.getDouble64
      generalize s.sentry = p at hs
      obtain ⟨b, s'⟩ := p
      simp only at hs
      subst hs
      rfl
    rw [this, h1] at h
    cases h
  | true =>
    obtain ⟨w, c, r, hw, hr, hc, hse⟩ := sentry_ok hs
    cases hv : (scanFloat (c :: r)).1 with
    | none =>
      simp [Stream.getDouble64, hse, hv] at h
    | some v =>
      have hsc : scanFloat (c :: r) = (some v, (scanFloat (c :: r)).2) := by rw [← hv]
      obtain ⟨x, hx1, hx2, hx3⟩ := scanFloat_iff.mp hsc
      cases hd : toDouble v with
      | none => simp [Stream.getDouble64, hse, hv, hd] at h
      | some d =>
        refine ⟨w, x, _, v, d, hw, hr.trans (congrArg (w ++ ·) hx1), hx2, hx3, hd, ?_⟩
        simp [Stream.getDouble64, hse, hv, hd]

theorem getDouble64_fail {s : Stream} {old : ℚ} (h : s.fail = true) : (s.getDouble64 old).1.fail = true := by
  cases hf : (s.getDouble64 old).1.fail with
  | true => rfl
  | false =>
    have hs := sentry_of_fail h
    have h1 := sentry_fail hs
    rw [← hf]
    unfold Stream.getDouble64
    generalize s.sentry = p at hs h1
    obtain ⟨b, s'⟩ := p
    simp only at hs
    subst hs
    exact h1

/-- A location is read exactly if the text begins with one. -/
theorem readLatLong64_iff {s : Stream} (h : s.Ok) (c1 : Char) (old r : LatLongRec) (rest : List Char) :
    readLatLong64 s c1 old = (⟨rest, rest.isEmpty, false⟩, r) ↔ Location64 s.rest r rest := by
  constructor
  · intro hr
    have hf : (readLatLong64 s c1 old).1.fail = false := by rw [hr]
    have hcolon : (readLatLong64 s c1 old).1.fail = false → _ := fun h => h
    simp only [readLatLong64] at hf hr
    cases h1 : (s.getDouble64 old.latitude).1.fail with
    | true =>
      exfalso
      have := getDouble64_fail (old := old.longitude) (getChar_fail (old := c1) h1)
      split at hf
      · cases hf
      · rw [this] at hf; cases hf
    | false =>
      obtain ⟨w1, x, r1, v1, a, hw1, hs1, hx, hxe, hd1, e1⟩ := getDouble64_ok h1
      rw [e1] at hf hr
      simp only at hf hr
      cases h2 : ((⟨r1, r1.isEmpty, false⟩ : Stream).getChar c1).1.fail with
      | true =>
        exfalso
        have := getDouble64_fail (old := old.longitude) h2
        split at hf
        · cases hf
        · rw [this] at hf; cases hf
      | false =>
        obtain ⟨w2, r2, c, hw2, hs2, hc, e2⟩ := getChar_ok h2
        rw [e2] at hf hr
        simp only at hf hr
        split at hf
        · cases hf
        · rename_i hcc
          have hcc : c = ':' := by simpa using hcc
          rw [if_neg (by simpa using hcc)] at hr
          obtain ⟨w3, y, r3, v2, b, hw3, hs3, hy, hye, hd2, e3⟩ := getDouble64_ok hf
          rw [e3] at hr
          injection hr with hr1 hr2
          injection hr1 with hr1 _ _
          subst hr1; subst hr2; subst hcc
          refine ⟨v1, v2, ⟨w1, x, w2, w3, y, hw1, hw2, hw3, hx, hy, hye, ?_⟩, hd1, hd2⟩
          simp only at hs2 hs3
          rw [hs1, hs2, hs3]
          simp
  · rintro ⟨v1, v2, ⟨w1, x, w2, w3, y, hw1, hw2, hw3, hx, hy, hye, ht⟩, hd1, hd2⟩
    have hends := ends_colon (r := w3 ++ (y ++ rest)) hw2
    have e1 := getDouble64_some h (r := w2 ++ ':' :: (w3 ++ (y ++ rest))) hw1 (by rw [ht]; simp) hx (hends.1 x) hd1 old.latitude
    have e2 := getChar_some (s := ⟨w2 ++ ':' :: (w3 ++ (y ++ rest)), _, false⟩) (Stream.ok_after _) hw2 rfl
      (c := ':') (by simp [IsBlank]) c1
    have e3 := getDouble64_some (s := ⟨w3 ++ (y ++ rest), false, false⟩) (Stream.ok_open _) hw3 rfl hy hye hd2 old.longitude
    simp [readLatLong64, e1, e2, e3]

theorem readLatLong64_ok {s : Stream} {c1 : Char} {old : LatLongRec} (hf : (readLatLong64 s c1 old).1.fail = false) :
    ∃ rest r, readLatLong64 s c1 old = (⟨rest, rest.isEmpty, false⟩, r) := by
  simp only [readLatLong64] at hf ⊢
  split at hf
  · cases hf
  · rename_i hc
    rw [if_neg hc]
    obtain ⟨w3, y, r3, v2, b, hw3, hs3, hy, hye, hd2, e3⟩ := getDouble64_ok hf
    rw [e3]
    exact ⟨r3, _, rfl⟩

/-- An orbit is read exactly if the text begins with one. -/
theorem readOrbit64_iff {s : Stream} (h : s.Ok) (c1 c2 c3 : Char) (old r : OrbitTxt) (rest : List Char) :
    readOrbit64 s c1 c2 c3 old = (⟨rest, rest.isEmpty, false⟩, r) ↔
      Orbit64 s.rest r rest := by
  constructor
  · intro hr
    have hf : (readOrbit64 s c1 c2 c3 old).1.fail = false := by rw [hr]
    simp only [readOrbit64] at hf hr
    have g7 : ∀ {s : Stream} {p : Prop} [Decidable p], (if p then { s with fail := true } else s).fail = false →
        ¬ p ∧ s.fail = false := by
      intro s p _ h
      split at h
      · cases h
      · rename_i hp; exact ⟨hp, h⟩
    have hp := (g7 hf).1
    have hall := (g7 hf).2
    rw [if_neg hp] at hr
    -- the flags, backwards
    have f6 := Bool.eq_false_iff.mpr (fun h => Bool.eq_false_iff.mp hall (getUShort_fail (old := old.sats) h))
    have f5 := Bool.eq_false_iff.mpr (fun h => Bool.eq_false_iff.mp f6 (getChar_fail (old := c3) h))
    have f4 := Bool.eq_false_iff.mpr (fun h => Bool.eq_false_iff.mp f5 (getUShort_fail (old := old.planes) h))
    have f3 := Bool.eq_false_iff.mpr (fun h => Bool.eq_false_iff.mp f4 (getChar_fail (old := c2) h))
    have f2 := Bool.eq_false_iff.mpr (fun h => Bool.eq_false_iff.mp f3 (getDouble64_fail (old := old.inc) h))
    have f1 := Bool.eq_false_iff.mpr (fun h => Bool.eq_false_iff.mp f2 (getChar_fail (old := c1) h))
    obtain ⟨w1, x, r1, v1, a, hw1, hs1, hx, hxe, hd1, e1⟩ := getDouble64_ok f1
    rw [e1] at f2 f3 f4 f5 f6 hall hp hr
    obtain ⟨w2, r2, d1, hw2, hs2, hdd1, e2⟩ := getChar_ok f2
    rw [e2] at f3 f4 f5 f6 hall hp hr
    obtain ⟨w3, y, r3, v2, b, hw3, hs3, hy, hye, hd2, e3⟩ := getDouble64_ok f3
    rw [e3] at f4 f5 f6 hall hp hr
    obtain ⟨w4, r4, d2, hw4, hs4, hdd2, e4⟩ := getChar_ok f4
    rw [e4] at f5 f6 hall hp hr
    obtain ⟨w5, z, r5, p, hw5, hs5, hz, hze, e5⟩ := getUShort_ok f5
    rw [e5] at f6 hall hp hr
    obtain ⟨w6, r6, d3, hw6, hs6, hd3, e6⟩ := getChar_ok f6
    rw [e6] at hall hp hr
    obtain ⟨w7, q, r7, n, hw7, hs7, hq, hqe, e7⟩ := getUShort_ok hall
    rw [e7] at hr
    injection hr with hr1 hr2
    injection hr1 with hr1 _ _
    simp only [not_or, not_not] at hp
    obtain ⟨hp1, hp2, hp3⟩ := hp
    subst hr1; subst hr2; subst hp1; subst hp2; subst hp3
    refine ⟨v1, v2, ⟨w1, x, w2, w3, y, w4, w5, z, w6, w7, q, hw1, hw2, hw3, hw4, hw5, hw6, hw7, hx, hy, hz, hq, hqe, ?_⟩, hd1, hd2⟩
    simp only at hs2 hs3 hs4 hs5 hs6 hs7
    rw [hs1, hs2, hs3, hs4, hs5, hs6, hs7]
    simp
  · rintro ⟨v1, v2, ⟨w1, x, w2, w3, y, w4, w5, p, w6, w7, q, hw1, hw2, hw3, hw4, hw5, hw6, hw7, hx, hy, hp, hq, hqe, ht⟩, hd1, hd2⟩
    have n1 := ends_colon (r := w3 ++ (y ++ (w4 ++ ':' :: (w5 ++ (p ++ (w6 ++ ':' :: (w7 ++ (q ++ rest)))))))) hw2
    have n2 := ends_colon (r := w5 ++ (p ++ (w6 ++ ':' :: (w7 ++ (q ++ rest))))) hw4
    have n3 := ends_colon (r := w7 ++ (q ++ rest)) hw6
    have hb : ¬ IsBlank ':' := by simp [IsBlank]
    have e1 := getDouble64_some h (r := w2 ++ ':' :: (w3 ++ (y ++ (w4 ++ ':' :: (w5 ++ (p ++ (w6 ++ ':' :: (w7 ++ (q ++ rest)))))))))
      hw1 (by rw [ht]; simp) hx (n1.1 x) hd1 old.alt
    have e2 := getChar_some (Stream.ok_after (w2 ++ ':' :: (w3 ++ (y ++ (w4 ++ ':' :: (w5 ++ (p ++ (w6 ++ ':' :: (w7 ++ (q ++ rest))))))))))
      hw2 rfl hb c1
    have e3 := getDouble64_some (Stream.ok_open (w3 ++ (y ++ (w4 ++ ':' :: (w5 ++ (p ++ (w6 ++ ':' :: (w7 ++ (q ++ rest)))))))))
      hw3 rfl hy (n2.1 y) hd2 old.inc
    have e4 := getChar_some (Stream.ok_after (w4 ++ ':' :: (w5 ++ (p ++ (w6 ++ ':' :: (w7 ++ (q ++ rest)))))))
      hw4 rfl hb c2
    have e5 := getUShort_some (Stream.ok_open (w5 ++ (p ++ (w6 ++ ':' :: (w7 ++ (q ++ rest)))))) hw5 rfl hp n3.2 old.planes
    have e6 := getChar_some (Stream.ok_after (w6 ++ ':' :: (w7 ++ (q ++ rest)))) hw6 rfl hb c3
    have e7 := getUShort_some (Stream.ok_open (w7 ++ (q ++ rest))) hw7 rfl hq hqe old.sats
    simp [readOrbit64, e1, e2, e3, e4, e5, e6, e7]

theorem readOrbit64_ok {s : Stream} {c1 c2 c3 : Char} {old : OrbitTxt} (hf : (readOrbit64 s c1 c2 c3 old).1.fail = false) :
    ∃ rest r, readOrbit64 s c1 c2 c3 old = (⟨rest, rest.isEmpty, false⟩, r) := by
  simp only [readOrbit64] at hf ⊢
  split at hf
  · cases hf
  · rename_i hc
    rw [if_neg hc]
    obtain ⟨w3, y, r3, b, hw3, hs3, hy, hye, e3⟩ := getUShort_ok hf
    rw [e3]
    exact ⟨r3, _, rfl⟩

/-! ## Files -/

theorem readLocations64_leading (junk : Nat → Char) : ∀ (n : Nat) (s : Stream) (old : LatLongRec), s.Ok → s.rest.length < n →
    Leading Location64 s.rest (readLocations64 junk n s old) := by
  intro n
  induction n with
  | zero => intro s old _ h; omega
  | succ n ih =>
    intro s old hs hn
    cases hf : (readLatLong64 s (junk n) old).1.fail with
    | true =>
      simp only [readLocations64, hf, if_true]
      apply Leading.stop
      rintro ⟨r, rest, hr⟩
      rw [(readLatLong64_iff hs (junk n) old r rest).mpr hr] at hf
      cases hf
    | false =>
      obtain ⟨rest, r, e⟩ := readLatLong64_ok hf
      have hr := (readLatLong64_iff hs (junk n) old r rest).mp e
      have hl : rest.length < s.rest.length := let ⟨_, _, hl, _⟩ := hr; location_shorter hl
      have := ih ⟨rest, rest.isEmpty, false⟩ r (Stream.ok_after rest) (by simp only; omega)
      simp only [readLocations64, e]
      exact Leading.more hr this

theorem readOrbits64_leading (junk : Nat → Char × Char × Char) : ∀ (n : Nat) (s : Stream) (old : OrbitTxt), s.Ok →
    s.rest.length < n →
    Leading Orbit64 s.rest (readOrbits64 junk n s old) := by
  intro n
  induction n with
  | zero => intro s old _ h; omega
  | succ n ih =>
    intro s old hs hn
    cases hf : (readOrbit64 s (junk n).1 (junk n).2.1 (junk n).2.2 old).1.fail with
    | true =>
      simp only [readOrbits64, hf, if_true]
      apply Leading.stop
      rintro ⟨r, rest, hr⟩
      rw [(readOrbit64_iff hs _ _ _ old r rest).mpr hr] at hf
      cases hf
    | false =>
      obtain ⟨rest, r, e⟩ := readOrbit64_ok hf
      have hr := (readOrbit64_iff hs _ _ _ old r rest).mp e
      have hl : rest.length < s.rest.length := let ⟨_, _, hl, _⟩ := hr; orbit_shorter hl
      have := ih ⟨rest, rest.isEmpty, false⟩ r (Stream.ok_after rest) (by simp only; omega)
      simp only [readOrbits64, e]
      exact Leading.more hr this

theorem location64_unique {t : List Char} {r r' : LatLongRec} {rest rest' : List Char} (h : Location64 t r rest)
    (h' : Location64 t r' rest') : r = r' ∧ rest = rest' := by
  obtain ⟨a, b, ht, ha, hb⟩ := h
  obtain ⟨a', b', ht', ha', hb'⟩ := h'
  obtain ⟨rfl, rfl, rfl⟩ := location_unique ht ht'
  rw [ha] at ha'
  rw [hb] at hb'
  cases r; cases r'
  injection ha' with e1
  injection hb' with e2
  simp only at e1 e2
  subst e1; subst e2
  exact ⟨rfl, rfl⟩

theorem orbit64_unique {t : List Char} {r r' : OrbitTxt} {rest rest' : List Char} (h : Orbit64 t r rest)
    (h' : Orbit64 t r' rest') : r = r' ∧ rest = rest' := by
  obtain ⟨a, b, ht, ha, hb⟩ := h
  obtain ⟨a', b', ht', ha', hb'⟩ := h'
  obtain ⟨rfl, rfl, e3, e4, rfl⟩ := orbit_unique ht ht'
  rw [ha] at ha'
  rw [hb] at hb'
  cases r; cases r'
  injection ha' with e1
  injection hb' with e2
  simp only at e1 e2 e3 e4
  subst e1; subst e2; subst e3; subst e4
  exact ⟨rfl, rfl⟩

/-- A text whose records are all convertible. -/
theorem leading_convert {α : Type} {P Q : List Char → α → List Char → Prop} {C : α → α → Prop}
    (h1 : ∀ t r rest r', P t r rest → C r r' → Q t r' rest) (h2 : ∀ t r' rest, Q t r' rest → ∃ r, P t r rest) {t : List Char}
    {l : List α} (h : Leading P t l) : ∀ {l' : List α}, List.Forall₂ C l l' → Leading Q t l' := by
  induction h with
  | stop hn =>
    intro l' hl
    cases hl
    exact Leading.stop fun ⟨r', rest, hq⟩ => hn (let ⟨r, hp⟩ := h2 _ _ _ hq; ⟨r, rest, hp⟩)
  | more hp _ ih =>
    intro l' hl
    cases hl with
    | cons hc hl => exact Leading.more (h1 _ _ _ _ hp hc) (ih hl)

/-! ## Reading what was printed -/

theorem maxDouble_le {x : ℚ} (h : IsDouble x) : |x| ≤ maxDouble := by
  obtain ⟨m, e, hm, _, he, rfl⟩ := h
  rw [abs_mul, abs_of_pos (two_zpow_pos e), maxDouble]
  have h1 : |(m : ℚ)| ≤ 2 ^ 53 - 1 := by
    have : |m| ≤ 2 ^ 53 - 1 := by omega
    exact_mod_cast this
  have h2 : (2 : ℚ) ^ e ≤ 2 ^ (971 : Int) := zpow_le_zpow_right₀ (by norm_num) he
  exact mul_le_mul h1 h2 (two_zpow_pos e).le (by norm_num)

theorem two_1024_nat : 179769 * 10 ^ 303 + 2 ^ 970 < 2 ^ 1024 := by decide +kernel

theorem maxDouble_nat : (2 ^ 53 - 1) * 2 ^ 971 * 10 ≤ 1797694 * 10 ^ 303 := by decide +kernel

/-- The largest `double` is rounded down when it is printed. -/
theorem printed_le {x : ℚ} (h : |x| ≤ maxDouble) : |printed x| ≤ 179769 * 10 ^ (303 : Int) := by
  have hmax : maxDouble * 10 ≤ 1797694 * 10 ^ (303 : Int) := by
    have := maxDouble_nat
    have h' : (((2 ^ 53 - 1) * 2 ^ 971 * 10 : Nat) : ℚ) ≤ ((1797694 * 10 ^ 303 : Nat) : ℚ) := Nat.cast_le.mpr this
    rw [Nat.cast_mul, Nat.cast_mul, Nat.cast_mul, Nat.cast_pow, Nat.cast_pow] at h'
    rw [maxDouble, show (971 : Int) = ((971 : Nat) : Int) from rfl, show (303 : Int) = ((303 : Nat) : Int) from rfl,
      zpow_natCast, zpow_natCast]
    refine le_trans (le_of_eq ?_) (h'.trans (le_of_eq ?_))
    · congr 2
      norm_num
    · congr 1
  have hp303 := ten_zpow_pos 303
  by_cases h0 : x = 0
  · rw [printed, if_pos h0, abs_zero]
    positivity
  · obtain ⟨hs1, hs2⟩ := scaled_bounds h0
    have hle := log10_le h0
    have hp := ten_zpow_pos (Int.log 10 |x| - 5)
    have e1 : |(if x < 0 then -1 else 1 : ℚ)| = 1 := by split <;> norm_num
    have hr0 : (0 : ℚ) ≤ roundEven (|x| * 10 ^ (5 - Int.log 10 |x|)) := by
      have : (0 : Int) ≤ roundEven (|x| * 10 ^ (5 - Int.log 10 |x|)) := roundEven_ge (by push_cast; linarith)
      exact_mod_cast this
    rw [printed_scaled h0, abs_mul, e1, one_mul, abs_mul, abs_of_pos hp, abs_of_nonneg hr0]
    have hlog : Int.log 10 |x| ≤ 308 := by
      by_contra hc
      have h309 : (10 : ℚ) ^ (309 : Int) ≤ 10 ^ Int.log 10 |x| := zpow_le_zpow_right₀ (by norm_num) (by omega)
      have e309 : (10 : ℚ) ^ (309 : Int) = 1000000 * 10 ^ (303 : Int) := by
        rw [show (309 : Int) = 6 + 303 from rfl, zpow_add₀ (by norm_num)]; norm_num
      rw [e309] at h309
      clear hs1 hs2 hr0 hp e309
      generalize (10 : ℚ) ^ (303 : Int) = T at *
      linarith
    rcases Int.lt_or_eq_of_le hlog with hlt | heq
    · have hr : (roundEven (|x| * 10 ^ (5 - Int.log 10 |x|)) : ℚ) ≤ 1000000 := by
        have : roundEven (|x| * 10 ^ (5 - Int.log 10 |x|)) ≤ (1000000 : Int) := roundEven_le (by push_cast; linarith)
        exact_mod_cast this
      have h302 : (10 : ℚ) ^ (Int.log 10 |x| - 5) ≤ 10 ^ (302 : Int) := zpow_le_zpow_right₀ (by norm_num) (by omega)
      have e302 : (10 : ℚ) ^ (303 : Int) = 10 * 10 ^ (302 : Int) := by
        rw [show (303 : Int) = 1 + 302 from rfl, zpow_add₀ (by norm_num), zpow_one]
      have := mul_le_mul hr h302 hp.le (by norm_num)
      rw [e302]
      have hp302 := ten_zpow_pos 302
      clear hmax h hle e302 hp303
      generalize (10 : ℚ) ^ (302 : Int) = T at *
      linarith
    · rw [heq] at hr0 ⊢
      have hz : |x| * 10 ^ (5 - (308 : Int)) ≤ 1797694 / 10 := by
        have e : (10 : ℚ) ^ (5 - (308 : Int)) * 10 ^ (303 : Int) = 1 := by
          rw [← zpow_add₀ (by norm_num)]; norm_num
        have hq := ten_zpow_pos (5 - (308 : Int))
        have : |x| ≤ 1797694 / 10 * 10 ^ (303 : Int) := by
          clear hs1 hs2 hle hr0 e hq
          generalize (10 : ℚ) ^ (303 : Int) = T at *
          linarith
        have h2 := mul_le_mul_of_nonneg_right this hq.le
        rw [mul_assoc, mul_comm ((10 : ℚ) ^ (303 : Int)), e, mul_one] at h2
        exact h2
      have hn := (abs_le.mp (roundEven_near (|x| * 10 ^ (5 - (308 : Int))))).2
      have hr : (roundEven (|x| * 10 ^ (5 - (308 : Int))) : ℚ) ≤ 179769 := by
        have h1 : (roundEven (|x| * 10 ^ (5 - (308 : Int))) : ℚ) < 179770 := by
          clear hs1 hs2 hle hmax hp303 h hr0 hp
          generalize |x| * 10 ^ (5 - (308 : Int)) = z at *
          linarith
        have h2 : roundEven (|x| * 10 ^ (5 - (308 : Int))) < 179770 := by exact_mod_cast h1
        have : roundEven (|x| * 10 ^ (5 - (308 : Int))) ≤ 179769 := by omega
        exact_mod_cast this
      exact mul_le_mul_of_nonneg_right hr (by rw [show (308 : Int) - 5 = 303 from rfl]; exact hp303.le)

/-- No printed `double` is too large to be read. -/
theorem printed_converts {x : ℚ} (h : IsDouble x) : ∃ x', toDouble (printed x) = some x' := by
  cases hd : toDouble (printed x) with
  | some x' => exact ⟨x', rfl⟩
  | none =>
    exfalso
    have h1 := (toDouble_none_iff _).mp hd
    have h2 := printed_le (maxDouble_le h)
    unfold TooLarge at h1
    have h3 : (179769 : ℚ) * 10 ^ (303 : Int) < 2 ^ (1024 : Int) - 2 ^ (970 : Int) := by
      have h' := two_1024_nat
      generalize ha : 2 ^ 1024 = a at h'
      generalize hb : 2 ^ 970 = b at h'
      generalize hc : 10 ^ 303 = c at h'
      have h'' : (179769 : ℚ) * c + b < a := by exact_mod_cast h'
      have ea : (2 : ℚ) ^ (1024 : Int) = a := by
        rw [← ha, Nat.cast_pow, show (1024 : Int) = ((1024 : Nat) : Int) from rfl, zpow_natCast]; rfl
      have eb : (2 : ℚ) ^ (970 : Int) = b := by
        rw [← hb, Nat.cast_pow, show (970 : Int) = ((970 : Nat) : Int) from rfl, zpow_natCast]; rfl
      have ec : (10 : ℚ) ^ (303 : Int) = c := by
        rw [← hc, Nat.cast_pow, show (303 : Int) = ((303 : Nat) : Int) from rfl, zpow_natCast]; rfl
      rw [ea, eb, ec]
      clear ha hb hc ea eb ec h1 h2 hd
      linarith
    exact absurd (h1.trans h2) (not_le.mpr h3)

/-- What is read is near what was printed. -/
theorem printed_close {x x' : ℚ} (h : IsDouble x) (hd : toDouble (printed x) = some x') : |x' - x| ≤ 1e-5 * |x| := by
  have h1 := (toDouble_nearest hd).2 x h
  have h2 := printed_err x
  have h3 := abs_sub_le x' (printed x) x
  rw [abs_sub_comm x] at h1
  linarith

theorem normal_of {x : ℚ} (h : 10 ^ (-301 : Int) ≤ |x|) : 2 ^ (-1022 : Int) ≤ |x| := by
  refine le_trans ?_ h
  rw [zpow_neg, zpow_neg]
  refine inv_anti₀ (ten_zpow_pos 301) ?_
  have h' : ((10 ^ 301 : Nat) : ℚ) ≤ ((2 ^ 1022 : Nat) : ℚ) := Nat.cast_le.mpr (by decide +kernel)
  rw [Nat.cast_pow, Nat.cast_pow] at h'
  rw [show (1022 : Int) = ((1022 : Nat) : Int) from rfl, show (301 : Int) = ((301 : Nat) : Int) from rfl, zpow_natCast,
    zpow_natCast]
  exact h'

theorem toDouble_zero : toDouble 0 = some 0 := by rw [toDouble, if_pos rfl]

/-- Conversion does not change what is printed of a number of six digits. -/
theorem show_converted {q x : ℚ} (hq : SixDigits q) (ht : q = 0 ∨ 10 ^ (-301 : Int) ≤ |q|) (hd : toDouble q = some x) :
    showDouble x = showDouble q := by
  rcases ht with rfl | ht
  · rw [toDouble_zero] at hd
    injection hd with hd
    rw [hd]
  · refine showDouble_of_near hq ?_
    have h1 := toDouble_err hd (normal_of ht)
    have h2 : (2 : ℚ) ^ (-53 : Int) ≤ 1e-8 := by norm_num
    exact h1.trans (mul_le_mul_of_nonneg_right h2 (abs_nonneg q))

theorem tame_printed {x : ℚ} (h : Tame x) : printed x = 0 ∨ 10 ^ (-301 : Int) ≤ |printed x| := by
  rcases h with rfl | h
  · left; simp [printed]
  · right
    have h1 := abs_sub_abs_le_abs_sub x (printed x)
    rw [abs_sub_comm] at h1
    have h2 := printed_err x
    have e : (10 : ℚ) ^ (-300 : Int) = 10 * 10 ^ (-301 : Int) := by
      rw [show (-300 : Int) = 1 + (-301) from rfl, zpow_add₀ (by norm_num), zpow_one]
    rw [e] at h
    have hp := ten_zpow_pos (-301)
    clear e
    generalize (10 : ℚ) ^ (-301 : Int) = T at *
    linarith

end Verif
