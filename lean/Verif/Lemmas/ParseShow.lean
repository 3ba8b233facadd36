import Mathlib.Tactic.FieldSimp
import Mathlib.Tactic.Ring
import Verif.Lemmas.ParseRecord
/-!
# Printed numbers and records
-/

namespace Verif
open Spec

theorem digitChar_toNat {n : Nat} (h : n < 10) : (digitChar n).toNat = 48 + n := by
  have : ∀ n < 10, (digitChar n).toNat = 48 + n := by decide
  exact this n h

theorem digitChar_isDigit {n : Nat} (h : n < 10) : IsDigit (digitChar n) := by
  unfold IsDigit
  rw [digitChar_toNat h]
  omega

theorem value_snoc {l : List Char} {n : Nat} (h : n < 10) : value (l ++ [digitChar n]) = value l * 10 + n := by
  rw [value_append]
  simp [value, digitChar_toNat h]

theorem digits_append {a b : List Char} (ha : Digits a) (hb : Digits b) : Digits (a ++ b) := by
  intro c hc
  rcases List.mem_append.mp hc with h | h
  · exact ha c h
  · exact hb c h

theorem digits_single {n : Nat} (h : n < 10) : Digits [digitChar n] := by
  intro c hc
  rw [List.mem_singleton] at hc
  rw [hc]
  exact digitChar_isDigit h

theorem showNat_spec (n : Nat) : Digits (showNat n) ∧ showNat n ≠ [] ∧ value (showNat n) = n := by
  induction n using Nat.strongRecOn with
  | _ n ih =>
    rw [showNat]
    split
    · rename_i h
      refine ⟨digits_single h, by simp, ?_⟩
      have := value_snoc (l := []) h
      simpa [value] using this
    · rename_i h
      obtain ⟨h1, _, h3⟩ := ih (n / 10) (by omega)
      have hm : n % 10 < 10 := Nat.mod_lt _ (by decide)
      refine ⟨digits_append h1 (digits_single hm), by simp, ?_⟩
      rw [value_snoc hm, h3]
      omega

theorem padDigits_spec (k : Nat) : ∀ n, Digits (padDigits k n) ∧ (padDigits k n).length = k ∧
    value (padDigits k n) = n % 10 ^ k := by
  induction k with
  | zero => intro n; exact ⟨by simp [padDigits, Digits], rfl, by simp [padDigits, value, Nat.mod_one]⟩
  | succ k ih =>
    intro n
    obtain ⟨h1, h2, h3⟩ := ih (n / 10)
    have hm : n % 10 < 10 := Nat.mod_lt _ (by decide)
    refine ⟨digits_append h1 (digits_single hm), by simp [padDigits, h2], ?_⟩
    rw [padDigits, value_snoc hm, h3, pow_succ, Nat.mul_comm (10 ^ k) 10, Nat.mod_mul]
    omega

/-- Parts of a number in positional notation. -/
theorem showDec_spec (m f : Nat) : ∃ i p d : List Char, showDec m f = i ++ p ∧ Digits i ∧ Digits d ∧ i ≠ [] ∧
    (p = [] ∧ d = [] ∨ p = '.' :: d) ∧ (value (i ++ d) : ℚ) / 10 ^ d.length = m / 10 ^ f := by
  obtain ⟨h1, h2, h3⟩ := showNat_spec (m / 10 ^ f)
  by_cases hf : f = 0
  · subst hf
    refine ⟨showNat (m / 10 ^ 0), [], [], by simp [showDec], h1, by simp [Digits], h2, Or.inl ⟨rfl, rfl⟩, ?_⟩
    rw [List.append_nil, h3]
    simp
  · obtain ⟨p1, p2, p3⟩ := padDigits_spec f (m % 10 ^ f)
    refine ⟨_, _, padDigits f (m % 10 ^ f), by rw [showDec, if_neg hf], h1, p1, h2, Or.inr rfl, ?_⟩
    rw [p2]
    congr 1
    rw [value_append, h3, p2, p3, Nat.mod_mod]
    exact_mod_cast Nat.div_add_mod' m (10 ^ f)

theorem stripZeros_spec : ∀ f m : Nat,
    ((stripZeros m f).1 : ℚ) / 10 ^ (stripZeros m f).2 = m / 10 ^ f := by
  intro f
  induction f with
  | zero => intro m; rfl
  | succ f ih =>
    intro m
    rw [stripZeros]
    split
    · rename_i h
      rw [ih (m / 10)]
      have : (m : ℚ) = (m / 10 : Nat) * 10 := by exact_mod_cast (by omega : m = m / 10 * 10)
      rw [pow_succ]
      conv_rhs => rw [this]
      field_simp
    · rfl

theorem roundEven_int (n : Nat) : roundEven (n : ℚ) = n := by
  have hf : ⌊(n : ℚ)⌋ = (n : Int) := Int.floor_natCast n
  simp [roundEven, hf]

theorem showExp_spec (n : Nat) : Digits (showExp n) ∧ showExp n ≠ [] ∧ value (showExp n) = n := by
  unfold showExp
  split
  · rename_i h
    refine ⟨?_, by simp, ?_⟩
    · have := digits_append (digits_single (n := 0) (by omega)) (digits_single h)
      exact this
    · have h2 := value_snoc (l := ['0']) h
      have h0 : value ['0'] = 0 := by decide
      rw [h0] at h2
      simpa using h2
  · exact showNat_spec n

/-- The digits `%g` prints of a number with at most six significant digits. -/
theorem sixDigits_scaled {q : ℚ} (h : SixDigits q) (hq : q ≠ 0) :
    ∃ N : Nat, N < 10 ^ 6 ∧ |q| * 10 ^ (5 - Int.log 10 |q|) = N := by
  obtain ⟨m, e, hm, rfl⟩ := h
  have hm0 : m ≠ 0 := by rintro rfl; simp at hq
  set a : ℚ := |(m : ℚ) * 10 ^ e| with ha
  have hpos : (0 : ℚ) < 10 ^ e := zpow_pos (by norm_num) e
  have ha' : a = |m| * 10 ^ e := by
    rw [ha, abs_mul, abs_of_pos hpos]
    push_cast
    rfl
  have hapos : 0 < a := abs_pos.mpr hq
  have l1 := Int.zpow_log_le_self (b := 10) (r := a) (by norm_num) hapos
  have l2 := Int.lt_zpow_succ_log_self (b := 10) (by norm_num) a
  set x := Int.log 10 a
  push_cast at l1 l2
  have hm6 : ((|m| : Int) : ℚ) < 10 ^ 6 := by exact_mod_cast hm
  have hx : x ≤ e + 5 := by
    have h1 : (10 : ℚ) ^ x < 10 ^ (6 + e) := by
      calc (10 : ℚ) ^ x ≤ a := l1
        _ = |m| * 10 ^ e := ha'
        _ < 10 ^ 6 * 10 ^ e := by
          push_cast at hm6 ⊢
          exact mul_lt_mul_of_pos_right hm6 hpos
        _ = 10 ^ (6 + e) := by rw [zpow_add₀ (by norm_num)]; norm_cast
    have := (zpow_lt_zpow_iff_right₀ (by norm_num : (1 : ℚ) < 10)).mp h1
    omega
  obtain ⟨k, hk⟩ := Int.eq_ofNat_of_zero_le (by omega : 0 ≤ e + (5 - x))
  refine ⟨m.natAbs * 10 ^ k, ?_, ?_⟩
  · have h1 : a * 10 ^ (5 - x) < 10 ^ (6 : Int) := by
      calc a * 10 ^ (5 - x) < 10 ^ (x + 1) * 10 ^ (5 - x) :=
            mul_lt_mul_of_pos_right l2 (zpow_pos (by norm_num) _)
        _ = 10 ^ (6 : Int) := by
          rw [← zpow_add₀ (by norm_num)]
          congr 1
          ring
    have h2 : a * 10 ^ (5 - x) = ((m.natAbs * 10 ^ k : Nat) : ℚ) := by
      rw [ha', mul_assoc, ← zpow_add₀ (by norm_num), hk]
      push_cast
      norm_cast
      push_cast
      rw [Nat.cast_natAbs]
      push_cast
      rfl
    rw [h2] at h1
    exact_mod_cast h1
  · rw [ha', mul_assoc, ← zpow_add₀ (by norm_num), hk]
    push_cast
    rw [Nat.cast_natAbs]
    norm_cast

theorem isFloat_of {neg : Bool} {i p d e : List Char} {k : Int} {a q : ℚ} (hi : Digits i) (hd : Digits d) (hne : i ≠ [])
    (hp : p = [] ∧ d = [] ∨ p = '.' :: d) (he : Exponent e k)
    (ha : a = (value (i ++ d) : ℚ) / 10 ^ d.length * 10 ^ k) (hq : q = if neg then -a else a) :
    IsFloat ((if neg then ['-'] else []) ++ (i ++ p) ++ e) q := by
  refine ⟨_, i, p, d, e, k, hi, hd, by simp [hne], hp, he, by simp; rfl, ?_⟩
  cases neg
  · left
    exact ⟨Or.inl ⟨rfl, id⟩, by rw [hq, ha]; rfl⟩
  · right
    exact ⟨Or.inr (Or.inr ⟨rfl, trivial⟩), by rw [hq, ha]; rfl⟩

/-- A printed number with at most six significant digits is a decimal number of that value. -/
theorem showDouble_spec {q : ℚ} (h : SixDigits q) : IsFloat (showDouble q) q := by
  by_cases hq : q = 0
  · subst hq
    refine ⟨[], ['0'], [], [], [], 0, ?_, by simp [Digits], by simp, Or.inl ⟨rfl, rfl⟩, Or.inl ⟨rfl, rfl⟩, ?_, ?_⟩
    · intro c hc
      rw [List.mem_singleton] at hc
      subst hc
      unfold IsDigit
      decide
    · simp [showDouble]
    · left
      refine ⟨Or.inl ⟨rfl, id⟩, ?_⟩
      have : value ['0'] = 0 := by decide
      simp [this]
  · obtain ⟨N, hN, hs⟩ := sixDigits_scaled h hq
    have hn0 : (roundEven (|q| * 10 ^ (5 - Int.log 10 |q|))).toNat = N := by
      rw [hs, roundEven_int]; simp
    have hN' : N ≠ 10 ^ 6 := by omega
    have habs : |q| = N * 10 ^ (Int.log 10 |q| - 5) := by
      rw [← hs, mul_assoc, ← zpow_add₀ (by norm_num)]
      simp
    have hsign : q = if (decide (q < 0)) then -|q| else |q| := by
      by_cases h0 : q < 0
      · simp [h0, abs_of_neg h0]
      · simp [h0, abs_of_nonneg (not_lt.mp h0)]
    set x := Int.log 10 |q| with hx
    have hs0 : (if q < 0 then ['-'] else []) = (if (decide (q < 0)) = true then ['-'] else ([] : List Char)) := by
      by_cases h0 : q < 0 <;> simp [h0]
    simp only [showDouble, if_neg hq, ← hx, hn0, if_neg hN']
    split
    · rename_i hr
      obtain ⟨i, p, d, h1, hi, hd, hne, hp, hv⟩ := showDec_spec (stripZeros N (5 - x).toNat).1 (stripZeros N (5 - x).toNat).2
      rw [stripZeros_spec] at hv
      have := isFloat_of (neg := decide (q < 0)) (e := []) (k := 0) hi hd hne hp (Or.inl ⟨rfl, rfl⟩)
        (a := |q|) (q := q) ?_ hsign
      · rw [h1, hs0]
        simpa using this
      · rw [hv, habs]
        have : (10 : ℚ) ^ (x - 5) = (10 ^ (5 - x).toNat)⁻¹ := by
          rw [← zpow_natCast, ← zpow_neg]
          congr 1
          omega
        rw [this]
        simp [div_eq_mul_inv]
    · obtain ⟨i, p, d, h1, hi, hd, hne, hp, hv⟩ := showDec_spec (stripZeros N 5).1 (stripZeros N 5).2
      rw [stripZeros_spec] at hv
      obtain ⟨e1, e2, e3⟩ := showExp_spec x.natAbs
      have hE : Exponent ('e' :: ([if x < 0 then '-' else '+'] ++ showExp x.natAbs)) x := by
        right
        refine ⟨'e', _, _, Or.inl rfl, e1, e2, rfl, ?_⟩
        rw [e3]
        by_cases h0 : x < 0
        · right
          refine ⟨Or.inr (Or.inr ⟨by simp [h0], trivial⟩), by omega⟩
        · left
          refine ⟨Or.inr (Or.inl ⟨by simp [h0], id⟩), by omega⟩
      have := isFloat_of (neg := decide (q < 0)) hi hd hne hp hE (a := |q|) (q := q) ?_ hsign
      · rw [h1, hs0]
        simpa using this
      · rw [hv, habs]
        rw [zpow_sub₀ (by norm_num)]
        norm_cast
        ring

theorem showNat_count {n : Nat} (h : n < 65536) : IsCount (showNat n) n := by
  obtain ⟨h1, h2, h3⟩ := showNat_spec n
  exact ⟨[], showNat n, h1, h2, by omega, rfl, Or.inl ⟨Or.inl ⟨rfl, id⟩, h3.symm⟩⟩

/-! ## Printed records -/

theorem showLatLong_spec {l : LatLongRec} (h1 : SixDigits l.latitude) (h2 : SixDigits l.longitude) {rest : List Char}
    (hr : FloatEnds (showDouble l.longitude) rest) {w : List Char} (hw : Blanks w) :
    LocationText (w ++ showLatLong l ++ rest) l.latitude l.longitude rest := by
  refine ⟨w, _, [], [], _, hw, by simp [Blanks], by simp [Blanks], showDouble_spec h1, showDouble_spec h2, hr, ?_⟩
  simp [showLatLong]

theorem showOrbit_spec {o : OrbitTxt} (h1 : SixDigits o.alt) (h2 : SixDigits o.inc) (h3 : o.planes < 65536)
    (h4 : o.sats < 65536) {rest : List Char} (hr : CountEnds rest) {w : List Char} (hw : Blanks w) :
    OrbitText (w ++ showOrbit o ++ rest) o.alt o.inc o.planes o.sats rest := by
  refine ⟨w, _, [], [], _, [], [], _, [], [], _, hw, by simp [Blanks], by simp [Blanks], by simp [Blanks],
    by simp [Blanks], by simp [Blanks], by simp [Blanks], showDouble_spec h1, showDouble_spec h2, showNat_count h3,
    showNat_count h4, hr, ?_⟩
  simp [showOrbit]

/-! ## Lists of printed records -/

theorem blanks_end {w r : List Char} (hw : Blanks w) (hne : w ≠ []) :
    (∀ x, FloatEnds x (w ++ r)) ∧ CountEnds (w ++ r) := by
  have nd : ∀ c, IsBlank c → ¬ IsDigit c ∧ c ≠ '.' ∧ c ≠ 'e' ∧ c ≠ 'E' := by
    intro c hc
    unfold IsDigit
    rcases hc with rfl | rfl | rfl | rfl | rfl | rfl <;> decide
  have key : ∀ c cs, w ++ r = c :: cs → IsBlank c := by
    intro c cs h
    cases w with
    | nil => exact absurd rfl hne
    | cons d w =>
      rw [List.cons_append] at h
      injection h with h _
      rw [← h]
      exact hw d (by simp)
  constructor
  · intro x c cs h
    obtain ⟨h1, h2, h3, h4⟩ := nd c (key c cs h)
    refine ⟨h1, fun h => absurd h h2, ?_⟩
    rintro (h | h)
    · exact absurd h h3
    · exact absurd h h4
  · intro c cs h
    exact (nd c (key c cs h)).1

theorem end_end : (∀ x, FloatEnds x []) ∧ CountEnds [] := by
  constructor
  · intro x c cs h; cases h
  · intro c cs h; cases h

theorem blanks_end' {w : List Char} (hw : Blanks w) : (∀ x, FloatEnds x w) ∧ CountEnds w := by
  by_cases h : w = []
  · subst h; exact end_end
  · have := blanks_end (r := []) hw h
    rwa [List.append_nil] at this

theorem no_location_in_blanks {w : List Char} (hw : Blanks w) {a b : ℚ} {rest : List Char} : ¬ LocationText w a b rest := by
  rintro ⟨w1, x, w2, w3, y, _, _, _, _, _, _, rfl⟩
  have := hw ':' (by simp)
  simp [IsBlank] at this

theorem no_orbit_in_blanks {w : List Char} (hw : Blanks w) {a b : ℚ} {p q : Nat} {rest : List Char} :
    ¬ OrbitText w a b p q rest := by
  rintro ⟨w1, x, w2, w3, y, w4, w5, z, w6, w7, u, _, _, _, _, _, _, _, _, _, _, _, _, rfl⟩
  have := hw ':' (by simp)
  simp [IsBlank] at this

theorem location_colons {t : List Char} {a b : ℚ} {rest : List Char} (h : LocationText t a b rest) : 1 ≤ t.count ':' := by
  obtain ⟨w1, x, w2, w3, y, _, _, _, _, _, _, rfl⟩ := h
  simp only [List.count_append, List.count_singleton_self]
  omega

theorem orbit_colons {t : List Char} {a b : ℚ} {p q : Nat} {rest : List Char} (h : OrbitText t a b p q rest) :
    3 ≤ t.count ':' := by
  obtain ⟨w1, x, w2, w3, y, w4, w5, z, w6, w7, u, _, _, _, _, _, _, _, _, _, _, _, _, rfl⟩ := h
  simp only [List.count_append, List.count_singleton_self]
  omega

end Verif
