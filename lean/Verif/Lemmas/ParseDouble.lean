import Verif.Lemmas.ParseShow
import Verif.Model.ParseDouble
import Verif.Spec.Double
/-!
# Numbers of the format binary64 in text
-/

namespace Verif
open Spec

/-! ## Rounding to an integer -/

theorem roundEven_near (x : ℚ) : |(roundEven x : ℚ) - x| ≤ 1 / 2 := by
  have h1 := Int.floor_le x
  have h2 := Int.lt_floor_add_one x
  unfold roundEven
  simp only
  split
  · rw [abs_le]; constructor <;> linarith
  · split
    · push_cast; rw [abs_le]; constructor <;> linarith
    · split
      · rw [abs_le]; constructor <;> linarith
      · push_cast; rw [abs_le]; constructor <;> linarith

theorem roundEven_ge {x : ℚ} {a : Int} (h : (a : ℚ) ≤ x) : a ≤ roundEven x := by
  have h1 : a ≤ ⌊x⌋ := Int.le_floor.mpr h
  unfold roundEven
  simp only
  split
  · exact h1
  · split
    · omega
    · split <;> omega

theorem roundEven_le {x : ℚ} {b : Int} (h : x ≤ b) : roundEven x ≤ b := by
  have h1 : ⌊x⌋ ≤ b := by
    have := Int.floor_le x
    exact_mod_cast this.trans h
  have h2 : ⌊x⌋ = b → x - ⌊x⌋ ≤ 0 := fun e => by rw [e]; linarith
  unfold roundEven
  simp only
  split
  · exact h1
  · rename_i h3
    have h4 : ⌊x⌋ ≠ b := fun e => h3 (lt_of_le_of_lt (h2 e) (by norm_num))
    split
    · omega
    · split <;> omega

/-- No integer is nearer. -/
theorem roundEven_best (x : ℚ) (k : Int) : |(roundEven x : ℚ) - x| ≤ |(k : ℚ) - x| := by
  rcases eq_or_ne (roundEven x) k with h | h
  · rw [h]
  · have h1 := roundEven_near x
    have h2 : (1 : ℚ) ≤ |(roundEven x : ℚ) - k| := by
      have : (1 : Int) ≤ |roundEven x - k| := Int.one_le_abs (by omega)
      exact_mod_cast this
    have h3 := abs_sub_le (roundEven x : ℚ) x k
    rw [abs_sub_comm x] at h3
    linarith

theorem roundEven_of_near {x : ℚ} {k : Int} (h : |x - k| < 1 / 2) : roundEven x = k := by
  have h1 := roundEven_near x
  have h2 := abs_sub_le (roundEven x : ℚ) x k
  have h3 : |((roundEven x - k : Int) : ℚ)| < 1 := by push_cast; linarith
  have h4 : |roundEven x - k| < 1 := by exact_mod_cast h3
  have := Int.abs_lt_one_iff.mp h4
  omega

/-! ## Conversion -/

/-- Exponent of the last place. -/
def ulpExp (q : ℚ) : Int := max (Int.log 2 |q| - 52) (-1074)

/-- The rounded magnitude. -/
def magnitude (q : ℚ) : ℚ := (roundEven (|q| / 2 ^ ulpExp q) : ℚ) * 2 ^ ulpExp q

theorem toDouble_eq {q : ℚ} (h : q ≠ 0) :
    toDouble q = if magnitude q < 2 ^ (1024 : Int) then some (if q < 0 then -magnitude q else magnitude q) else none := by
  rw [toDouble, if_neg h]
  rfl

theorem two_zpow_pos (e : Int) : (0 : ℚ) < 2 ^ e := zpow_pos (by norm_num) e

theorem two_52 (l : Int) : ((2 ^ 52 : Int) : ℚ) * 2 ^ (l - 52) = 2 ^ l := by
  have h : ((2 ^ 52 : Int) : ℚ) = 2 ^ (52 : Int) := by norm_num
  rw [h, ← zpow_add₀ (by norm_num)]
  congr 1
  ring

theorem two_53 (l : Int) : (2 : ℚ) ^ 53 * 2 ^ l = 2 ^ (53 + l) := by
  rw [zpow_add₀ (by norm_num)]
  norm_cast

theorem log2_le {q : ℚ} (h : q ≠ 0) : (2 : ℚ) ^ Int.log 2 |q| ≤ |q| := by
  have := Int.zpow_log_le_self (b := 2) (r := |q|) (by norm_num) (abs_pos.mpr h)
  exact_mod_cast this

theorem lt_log2 (q : ℚ) : |q| < (2 : ℚ) ^ (Int.log 2 |q| + 1) := by
  have := Int.lt_zpow_succ_log_self (b := 2) (by norm_num) |q|
  exact_mod_cast this

theorem scaled_lt (q : ℚ) : |q| / 2 ^ ulpExp q < 2 ^ 53 := by
  have hp := two_zpow_pos (ulpExp q)
  rw [div_lt_iff₀ hp]
  have h1 : (2 : ℚ) ^ (Int.log 2 |q| + 1) ≤ 2 ^ (53 + ulpExp q) :=
    zpow_le_zpow_right₀ (by norm_num) (by unfold ulpExp; omega)
  calc |q| < _ := lt_log2 q
    _ ≤ _ := h1
    _ = _ := by rw [two_53]

theorem round_le (q : ℚ) : roundEven (|q| / 2 ^ ulpExp q) ≤ 2 ^ 53 :=
  roundEven_le (by exact_mod_cast (scaled_lt q).le)

theorem round_nonneg (q : ℚ) : 0 ≤ roundEven (|q| / 2 ^ ulpExp q) :=
  roundEven_ge (by push_cast; have := two_zpow_pos (ulpExp q); positivity)

theorem magnitude_nonneg (q : ℚ) : 0 ≤ magnitude q :=
  mul_nonneg (by exact_mod_cast round_nonneg q) (two_zpow_pos _).le

/-- The rounded magnitude is at least as near as any multiple of the last place. -/
theorem magnitude_best (q : ℚ) (k : Int) : |magnitude q - abs q| ≤ |(k : ℚ) * 2 ^ ulpExp q - abs q| := by
  have hp := two_zpow_pos (ulpExp q)
  have h := roundEven_best (|q| / 2 ^ ulpExp q) k
  have e : ∀ z : ℚ, |z * 2 ^ ulpExp q - abs q| = |z - |q| / 2 ^ ulpExp q| * 2 ^ ulpExp q := by
    intro z
    rw [← abs_of_pos hp, ← abs_mul, abs_of_pos hp, sub_mul, div_mul_cancel₀ _ hp.ne']
  rw [magnitude, e, e]
  exact mul_le_mul_of_nonneg_right h hp.le

theorem magnitude_err (q : ℚ) : |magnitude q - abs q| ≤ 2 ^ ulpExp q / 2 := by
  have hp := two_zpow_pos (ulpExp q)
  have h := roundEven_near (|q| / 2 ^ ulpExp q)
  have e : ∀ z : ℚ, |z * 2 ^ ulpExp q - abs q| = |z - |q| / 2 ^ ulpExp q| * 2 ^ ulpExp q := by
    intro z
    rw [← abs_of_pos hp, ← abs_mul, abs_of_pos hp, sub_mul, div_mul_cancel₀ _ hp.ne']
  rw [magnitude, e]
  have := mul_le_mul_of_nonneg_right h hp.le
  linarith

/-- A power of two at or below the number stays below the rounded magnitude. -/
theorem magnitude_ge_log {q : ℚ} (h : q ≠ 0) (hn : -1022 ≤ Int.log 2 |q|) : (2 : ℚ) ^ Int.log 2 |q| ≤ magnitude q := by
  have hp := two_zpow_pos (ulpExp q)
  have he : ulpExp q = Int.log 2 |q| - 52 := by unfold ulpExp; omega
  have h52 : (2 : ℚ) ^ Int.log 2 |q| = (2 ^ 52 : Int) * 2 ^ ulpExp q := by
    rw [he]
    exact (two_52 _).symm
  have h1 : ((2 ^ 52 : Int) : ℚ) ≤ |q| / 2 ^ ulpExp q := by
    rw [le_div_iff₀ hp, ← h52]
    exact log2_le h
  have h2 := roundEven_ge h1
  rw [h52, magnitude]
  exact mul_le_mul_of_nonneg_right (by exact_mod_cast h2) hp.le

theorem magnitude_isDouble {q : ℚ} (h : q ≠ 0) (hm : magnitude q < 2 ^ (1024 : Int)) : IsDouble (magnitude q) := by
  have h0 := round_nonneg q
  have h53 := round_le q
  have hlog : Int.log 2 |q| < 1024 := by
    by_contra hc
    have h1 := magnitude_ge_log h (by omega)
    have h2 : (2 : ℚ) ^ (1024 : Int) ≤ 2 ^ Int.log 2 |q| := zpow_le_zpow_right₀ (by norm_num) (by omega)
    exact absurd (h2.trans h1) (not_le.mpr hm)
  rcases h53.lt_or_eq with hlt | heq
  · exact ⟨_, ulpExp q, by rw [abs_of_nonneg h0]; exact hlt, by unfold ulpExp; omega, by unfold ulpExp; omega, rfl⟩
  · have hr : magnitude q = ((2 ^ 52 : Int) : ℚ) * 2 ^ (ulpExp q + 1) := by
      rw [magnitude, heq, zpow_add₀ (by norm_num)]
      push_cast
      ring
    refine ⟨2 ^ 52, ulpExp q + 1, by norm_num, by unfold ulpExp; omega, ?_, hr⟩
    by_contra hc
    have h1 : (2 : ℚ) ^ (972 : Int) ≤ 2 ^ (ulpExp q + 1) := zpow_le_zpow_right₀ (by norm_num) (by omega)
    have h2 := two_52 1024
    have h5 : ((2 ^ 52 : Int) : ℚ) * 2 ^ (972 : Int) ≤ ((2 ^ 52 : Int) : ℚ) * 2 ^ (ulpExp q + 1) :=
      mul_le_mul_of_nonneg_left h1 (by norm_num)
    rw [hr, ← h2] at hm
    exact absurd h5 (not_le.mpr hm)

theorem Spec.IsDouble.neg {x : ℚ} (h : IsDouble x) : IsDouble (-x) := by
  obtain ⟨m, e, h1, h2, h3, rfl⟩ := h
  exact ⟨-m, e, by rwa [abs_neg], h2, h3, by push_cast; ring⟩

theorem Spec.IsDouble.abs {x : ℚ} (h : IsDouble x) : IsDouble |x| := by
  rcases abs_choice x with e | e <;> rw [e]
  · exact h
  · exact h.neg

theorem isDouble_zero : IsDouble 0 := ⟨0, 0, by norm_num, by norm_num, by norm_num, by norm_num⟩

/-- No `double` is nearer to the magnitude. -/
theorem magnitude_nearest {q : ℚ} (h : q ≠ 0) {y : ℚ} (hy : IsDouble y) : |magnitude q - abs q| ≤ |y - abs q| := by
  obtain ⟨m, e, hm, he1, he2, rfl⟩ := hy
  by_cases hle : ulpExp q ≤ e
  · obtain ⟨k, hk⟩ := Int.eq_ofNat_of_zero_le (by omega : 0 ≤ e - ulpExp q)
    have : (m : ℚ) * 2 ^ e = ((m * 2 ^ k : Int) : ℚ) * 2 ^ ulpExp q := by
      have : e = k + ulpExp q := by omega
      rw [this, zpow_add₀ (by norm_num)]
      push_cast
      rw [zpow_natCast]
      ring
    rw [this]
    exact magnitude_best q _
  · -- a shorter exponent: the number lies below the power of two at or below `|q|`
    have hu : ulpExp q = Int.log 2 |q| - 52 := by unfold ulpExp at hle ⊢; omega
    have hm' : ((m : Int) : ℚ) < 2 ^ 53 := by
      have : m < 2 ^ 53 := lt_of_le_of_lt (le_abs_self m) hm
      exact_mod_cast this
    have h1 : (m : ℚ) * 2 ^ e ≤ 2 ^ Int.log 2 |q| := by
      calc (m : ℚ) * 2 ^ e ≤ 2 ^ 53 * 2 ^ e := mul_le_mul_of_nonneg_right hm'.le (two_zpow_pos e).le
        _ = 2 ^ (53 + e) := by rw [two_53]
        _ ≤ 2 ^ Int.log 2 |q| := zpow_le_zpow_right₀ (by norm_num) (by omega)
    have h2 := log2_le h
    have h52 : (2 : ℚ) ^ Int.log 2 |q| = (2 ^ 52 : Int) * 2 ^ ulpExp q := by
      rw [hu]
      exact (two_52 _).symm
    refine (magnitude_best q (2 ^ 52)).trans ?_
    rw [← h52, abs_of_nonpos (by linarith : (2 : ℚ) ^ Int.log 2 |q| - abs q ≤ 0),
      abs_of_nonpos (by linarith : (m : ℚ) * 2 ^ e - abs q ≤ 0)]
    linarith

/-- What the conversion gives is the nearest `double`. -/
theorem toDouble_nearest {q x : ℚ} (h : toDouble q = some x) : Nearest q x := by
  by_cases hq : q = 0
  · subst hq
    rw [toDouble, if_pos rfl] at h
    injection h with h
    subst h
    exact ⟨isDouble_zero, fun y _ => by simp⟩
  · rw [toDouble_eq hq] at h
    split at h
    · rename_i hm
      injection h with h
      subst h
      have hd := magnitude_isDouble hq hm
      split
      · rename_i hneg
        refine ⟨hd.neg, fun y hy => ?_⟩
        have := magnitude_nearest hq hy.neg
        rw [abs_of_neg hneg] at this
        rw [abs_sub_comm, abs_sub_comm y]
        have e1 : |q - -magnitude q| = |magnitude q - -q| := by congr 1; ring
        have e2 : |q - y| = |-y - -q| := by congr 1; ring
        rw [e1, e2]
        exact this
      · rename_i hneg
        refine ⟨hd, fun y hy => ?_⟩
        have := magnitude_nearest hq hy
        rwa [abs_of_nonneg (not_lt.mp hneg)] at this
    · cases h

/-- A `double` is converted to itself. -/
theorem toDouble_self {x : ℚ} (h : IsDouble x) : toDouble x = some x := by
  by_cases hx : x = 0
  · subst hx; rw [toDouble, if_pos rfl]
  · have h1 := magnitude_nearest hx h.abs
    rw [sub_self, abs_zero] at h1
    have h2 : magnitude x = |x| := by
      have := abs_nonpos_iff.mp h1
      linarith
    have h3 : |x| < 2 ^ (1024 : Int) := by
      obtain ⟨m, e, hm, _, he, hx'⟩ := h
      have hm' : ((|m| : Int) : ℚ) < 2 ^ 53 := by exact_mod_cast hm
      rw [hx', abs_mul, abs_of_pos (two_zpow_pos e)]
      calc |(m : ℚ)| * 2 ^ e < 2 ^ 53 * 2 ^ e := by
            push_cast at hm'
            exact mul_lt_mul_of_pos_right hm' (two_zpow_pos e)
        _ = 2 ^ (53 + e) := by rw [two_53]
        _ ≤ 2 ^ (1024 : Int) := zpow_le_zpow_right₀ (by norm_num) (by omega)
    rw [toDouble_eq hx, h2, if_pos h3]
    congr 1
    split
    · rename_i hn; rw [abs_of_neg hn]; ring
    · rename_i hn; rw [abs_of_nonneg (not_lt.mp hn)]

/-- The conversion fails exactly beyond the range. -/
theorem toDouble_none_iff (q : ℚ) : toDouble q = none ↔ TooLarge q := by
  unfold TooLarge
  have e1 : (2 : ℚ) ^ (1024 : Int) = 2 * 2 ^ (1023 : Int) := by
    rw [show (1024 : Int) = 1023 + 1 from rfl, zpow_add₀ (by norm_num), zpow_one, mul_comm]
  have e2 : (2 : ℚ) ^ (970 : Int) < 2 ^ (1023 : Int) := zpow_lt_zpow_right₀ (by norm_num) (by norm_num)
  have e3 : (0 : ℚ) < 2 ^ (1023 : Int) := two_zpow_pos _
  have e4 : (0 : ℚ) < 2 ^ (970 : Int) := two_zpow_pos _
  have e971 : (2 : ℚ) ^ (1024 : Int) = 2 ^ 53 * 2 ^ (971 : Int) := by rw [two_53]; norm_num
  have e970 : (2 : ℚ) ^ (970 : Int) = (1 / 2) * 2 ^ (971 : Int) := by
    rw [show (971 : Int) = 970 + 1 from rfl, zpow_add₀ (by norm_num), zpow_one]
    ring
  by_cases hq : q = 0
  · subst hq
    rw [toDouble, if_pos rfl]
    simp only [reduceCtorEq, abs_zero, false_iff, not_le]
    clear e971 e970
    generalize (2 : ℚ) ^ (1024 : Int) = T at *
    generalize (2 : ℚ) ^ (1023 : Int) = H at *
    generalize (2 : ℚ) ^ (970 : Int) = L at *
    linarith
  · rw [toDouble_eq hq]
    have key : (if magnitude q < 2 ^ (1024 : Int) then some (if q < 0 then -magnitude q else magnitude q) else none) = none ↔
        (2 : ℚ) ^ (1024 : Int) ≤ magnitude q := by
      generalize (2 : ℚ) ^ (1024 : Int) = T
      split <;> simp_all
    rw [key]
    rcases lt_trichotomy (Int.log 2 |q|) 1023 with hl | hl | hl
    · -- below
      have h1 : |q| ≤ 2 ^ (1023 : Int) :=
        (lt_log2 q).le.trans (zpow_le_zpow_right₀ (by norm_num) (by omega))
      have h2 : magnitude q ≤ 2 ^ (1023 : Int) := by
        have hr : ((roundEven (|q| / 2 ^ ulpExp q) : Int) : ℚ) ≤ 2 ^ 53 := by exact_mod_cast round_le q
        calc magnitude q ≤ 2 ^ 53 * 2 ^ ulpExp q := mul_le_mul_of_nonneg_right hr (two_zpow_pos _).le
          _ = 2 ^ (53 + ulpExp q) := two_53 _
          _ ≤ 2 ^ (1023 : Int) := zpow_le_zpow_right₀ (by norm_num) (by unfold ulpExp; omega)
      clear e971 e970
      generalize (2 : ℚ) ^ (1024 : Int) = T at *
      generalize (2 : ℚ) ^ (1023 : Int) = H at *
      generalize (2 : ℚ) ^ (970 : Int) = L at *
      constructor <;> intro h <;> linarith
    · have hu : ulpExp q = 971 := by unfold ulpExp; omega
      have hp : (0 : ℚ) < 2 ^ (971 : Int) := two_zpow_pos _
      have a1 : (2 : ℚ) ^ (1024 : Int) ≤ magnitude q ↔ (2 ^ 53 : Int) ≤ roundEven (|q| / 2 ^ (971 : Int)) := by
        rw [magnitude, hu, e971, mul_le_mul_iff_left₀ hp]
        exact_mod_cast Iff.rfl
      have a2 : (2 : ℚ) ^ (1024 : Int) - 2 ^ (970 : Int) ≤ |q| ↔ (2 : ℚ) ^ 53 - 1 / 2 ≤ |q| / 2 ^ (971 : Int) := by
        rw [le_div_iff₀ hp, e971, e970, ← sub_mul]
      rw [a1, a2]
      have hs := scaled_lt q
      rw [hu] at hs
      clear e1 e2 e3 e4 e971 e970 key a1 a2 hp
      generalize |q| / 2 ^ (971 : Int) = z at hs ⊢
      constructor
      · intro h
        have h1 := (abs_le.mp (roundEven_near z)).2
        have h2 : (2 : ℚ) ^ 53 ≤ roundEven z := by exact_mod_cast h
        linarith
      · intro h
        have hf : ⌊z⌋ = 2 ^ 53 - 1 := by
          rw [Int.floor_eq_iff]
          constructor
          · push_cast; linarith
          · push_cast; linarith
        unfold roundEven
        rw [hf]
        simp only
        have hz : ¬ (z - ((2 ^ 53 - 1 : Int) : ℚ) < 1 / 2) := by push_cast; linarith
        rw [if_neg hz]
        split <;> norm_num
    · have h1 := log2_le hq
      have h2 : (2 : ℚ) ^ (1024 : Int) ≤ 2 ^ Int.log 2 |q| := zpow_le_zpow_right₀ (by norm_num) (by omega)
      have h3 := magnitude_ge_log hq (by omega)
      generalize (2 : ℚ) ^ (1024 : Int) = T at *
      generalize (2 : ℚ) ^ (970 : Int) = L at *
      constructor <;> intro _ <;> linarith

/-- Error of the conversion for numbers that are not subnormal. -/
theorem toDouble_err {q x : ℚ} (h : toDouble q = some x) (hn : 2 ^ (-1022 : Int) ≤ |q|) : |x - q| ≤ 2 ^ (-53 : Int) * |q| := by
  have hq : q ≠ 0 := by
    rintro rfl
    have := two_zpow_pos (-1022)
    rw [abs_zero] at hn
    linarith
  have hl : -1022 ≤ Int.log 2 |q| := by
    have h1 := lt_of_le_of_lt hn (lt_log2 q)
    have := (zpow_lt_zpow_iff_right₀ (by norm_num : (1 : ℚ) < 2)).mp h1
    omega
  have hu : ulpExp q = Int.log 2 |q| - 52 := by unfold ulpExp; omega
  have he : |magnitude q - abs q| ≤ 2 ^ (-53 : Int) * |q| := by
    refine (magnitude_err q).trans ?_
    have h1 := log2_le hq
    rw [hu, zpow_sub₀ (by norm_num)]
    have h2 : (2 : ℚ) ^ (-53 : Int) = 1 / 2 ^ (52 : Int) / 2 := by norm_num
    rw [h2]
    have h3 : (0 : ℚ) < 2 ^ (52 : Int) := two_zpow_pos _
    have : (2 : ℚ) ^ Int.log 2 |q| / 2 ^ (52 : Int) / 2 = 1 / 2 ^ (52 : Int) / 2 * 2 ^ Int.log 2 |q| := by ring
    rw [this]
    exact mul_le_mul_of_nonneg_left h1 (by positivity)
  rw [toDouble_eq hq] at h
  split at h
  · injection h with h
    subst h
    split
    · rename_i hneg
      rw [abs_of_neg hneg] at he ⊢
      have : |(-magnitude q) - q| = |magnitude q - -q| := by
        rw [← abs_neg]; congr 1; ring
      rw [this]
      exact he
    · rename_i hneg
      rw [abs_of_nonneg (not_lt.mp hneg)] at he ⊢
      exact he
  · cases h

theorem roundEven_even {x : ℚ} {k : Int} (hk : k ≠ roundEven x) (h : |(k : ℚ) - x| = |(roundEven x : ℚ) - x|) :
    roundEven x % 2 = 0 := by
  have h0 := roundEven_near x
  have h1 : (1 : ℚ) ≤ |(roundEven x : ℚ) - k| := by
    have : (1 : Int) ≤ |roundEven x - k| := Int.one_le_abs (by omega)
    exact_mod_cast this
  have h2 := abs_sub_le (roundEven x : ℚ) x k
  rw [abs_sub_comm x] at h2
  have hhalf : |(roundEven x : ℚ) - x| = 1 / 2 := by linarith
  clear h h1 h2 hk h0
  have f1 := Int.floor_le x
  have f2 := Int.lt_floor_add_one x
  unfold roundEven at hhalf ⊢
  simp only at hhalf ⊢
  split
  · rename_i hl
    rw [if_pos hl] at hhalf
    rw [abs_of_nonpos (by linarith)] at hhalf
    linarith
  · rename_i hl
    rw [if_neg hl] at hhalf
    split
    · rename_i hg
      rw [if_pos hg] at hhalf
      push_cast at hhalf
      rw [abs_of_nonneg (by linarith)] at hhalf
      linarith
    · split <;> omega

/-- If two `double`s are equally near, the even one is taken: the result is an even multiple of the distance to the other. -/
theorem toDouble_even {q x y : ℚ} (h : toDouble q = some x) (hy : Nearest q y) (hne : y ≠ x) :
    ∃ m e : Int, x = (2 * m : Int) * 2 ^ e ∧ |y - x| = 2 ^ e := by
  have hx := toDouble_nearest h
  have heq : |y - q| = |x - q| := le_antisymm (hy.2 x hx.1) (hx.2 y hy.1)
  by_cases hq : q = 0
  · subst hq
    rw [toDouble, if_pos rfl] at h
    injection h with h
    subst h
    simp at heq
    exact absurd heq hne
  · -- signs aside, `y` is a multiple of the last place
    have hp := two_zpow_pos (ulpExp q)
    obtain ⟨σ, hσ, hqσ, hxσ⟩ : ∃ σ : ℚ, (σ = 1 ∨ σ = -1) ∧ q = σ * |q| ∧ x = σ * magnitude q := by
      rw [toDouble_eq hq] at h
      split at h
      · injection h with h
        split at h
        · rename_i hn
          exact ⟨-1, Or.inr rfl, by rw [abs_of_neg hn]; ring, by rw [← h]; ring⟩
        · rename_i hn
          exact ⟨1, Or.inl rfl, by rw [abs_of_nonneg (not_lt.mp hn)]; ring, by rw [← h]; ring⟩
      · cases h
    have hσ2 : σ * σ = 1 := by rcases hσ with rfl | rfl <;> norm_num
    have hσa : |σ| = 1 := by rcases hσ with rfl | rfl <;> norm_num
    have hyd : IsDouble (σ * y) := by
      rcases hσ with rfl | rfl
      · simpa using hy.1
      · simpa using hy.1.neg
    have e1 : |σ * y - abs q| = |magnitude q - abs q| := by
      have a1 : |y - q| = |σ * y - abs q| := by
        have : σ * y - abs q = σ * (y - q) := by
          have : abs q = σ * q := by
            conv_rhs => rw [hqσ]
            rw [← mul_assoc, hσ2, one_mul]
          rw [this]; ring
        rw [this, abs_mul, hσa, one_mul]
      have a2 : |x - q| = |magnitude q - abs q| := by
        have : x - q = σ * (magnitude q - abs q) := by
          rw [mul_sub, ← hqσ, ← hxσ]
        rw [this, abs_mul, hσa, one_mul]
      rw [← a1, ← a2, heq]
    have hne' : σ * y ≠ magnitude q := by
      intro hc
      apply hne
      rw [hxσ, ← hc, ← mul_assoc, hσ2, one_mul]
    obtain ⟨k, hk⟩ : ∃ k : Int, σ * y = k * 2 ^ ulpExp q := by
      obtain ⟨m, e, hm, he1, he2, hme⟩ := hyd
      by_cases hle : ulpExp q ≤ e
      · obtain ⟨k, hk⟩ := Int.eq_ofNat_of_zero_le (by omega : 0 ≤ e - ulpExp q)
        refine ⟨m * 2 ^ k, ?_⟩
        have : e = k + ulpExp q := by omega
        rw [hme, this, zpow_add₀ (by norm_num)]
        push_cast
        rw [zpow_natCast]
        ring
      · have hu : ulpExp q = Int.log 2 |q| - 52 := by unfold ulpExp at hle ⊢; omega
        have hm' : ((m : Int) : ℚ) < 2 ^ 53 := by
          have : m < 2 ^ 53 := lt_of_le_of_lt (le_abs_self m) hm
          exact_mod_cast this
        have h1 : σ * y < 2 ^ Int.log 2 |q| := by
          rw [hme]
          calc (m : ℚ) * 2 ^ e < 2 ^ 53 * 2 ^ e := mul_lt_mul_of_pos_right hm' (two_zpow_pos e)
            _ = 2 ^ (53 + e) := by rw [two_53]
            _ ≤ 2 ^ Int.log 2 |q| := zpow_le_zpow_right₀ (by norm_num) (by omega)
        have h2 := log2_le hq
        have h52 : (2 : ℚ) ^ Int.log 2 |q| = (2 ^ 52 : Int) * 2 ^ ulpExp q := by
          rw [hu]
          exact (two_52 _).symm
        have h3 := magnitude_best q (2 ^ 52)
        rw [← h52, ← e1, abs_of_nonpos (by linarith : (2 : ℚ) ^ Int.log 2 |q| - abs q ≤ 0),
          abs_of_nonpos (by linarith : σ * y - abs q ≤ 0)] at h3
        linarith
    have e2 : ∀ z : ℚ, |z * 2 ^ ulpExp q - abs q| = |z - |q| / 2 ^ ulpExp q| * 2 ^ ulpExp q := by
      intro z
      rw [← abs_of_pos hp, ← abs_mul, abs_of_pos hp, sub_mul, div_mul_cancel₀ _ hp.ne']
    rw [hk, magnitude, e2, e2] at e1
    have e3 := mul_right_cancel₀ hp.ne' e1
    have hkr : k ≠ roundEven (|q| / 2 ^ ulpExp q) := by
      intro hc
      apply hne'
      rw [hk, hc, magnitude]
    have hev := roundEven_even hkr e3
    have hnear := roundEven_near (|q| / 2 ^ ulpExp q)
    have hdist : |(k : ℚ) - roundEven (|q| / 2 ^ ulpExp q)| = 1 := by
      have a1 : (1 : ℚ) ≤ |(k : ℚ) - roundEven (|q| / 2 ^ ulpExp q)| := by
        have : (1 : Int) ≤ |k - roundEven (|q| / 2 ^ ulpExp q)| := Int.one_le_abs (by omega)
        exact_mod_cast this
      have a2 := abs_sub_le (k : ℚ) (|q| / 2 ^ ulpExp q) (roundEven (|q| / 2 ^ ulpExp q) : ℚ)
      rw [abs_sub_comm (|q| / 2 ^ ulpExp q)] at a2
      linarith
    have hyx : |y - x| = 2 ^ ulpExp q := by
      have : σ * (y - x) = ((k : ℚ) - roundEven (|q| / 2 ^ ulpExp q)) * 2 ^ ulpExp q := by
        rw [mul_sub, hk, hxσ, ← mul_assoc, hσ2, one_mul, magnitude, sub_mul]
      have a := congrArg abs this
      rw [abs_mul, abs_mul, hσa, one_mul, hdist, one_mul, abs_of_pos hp] at a
      exact a
    obtain ⟨j, hj⟩ : ∃ j, roundEven (|q| / 2 ^ ulpExp q) = 2 * j := ⟨_, (Int.mul_ediv_cancel' (Int.dvd_of_emod_eq_zero hev)).symm⟩
    rcases hσ with rfl | rfl
    · exact ⟨j, ulpExp q, by rw [hxσ, magnitude, hj]; ring, hyx⟩
    · exact ⟨-j, ulpExp q, by rw [hxσ, magnitude, hj]; push_cast; ring, hyx⟩

/-! ## Printing -/

/-- Exponent that is printed. -/
def sciExp (q : ℚ) : Int :=
  if (roundEven (|q| * 10 ^ (5 - Int.log 10 |q|))).toNat = 10 ^ 6 then Int.log 10 |q| + 1 else Int.log 10 |q|

/-- The six digits that are printed. -/
def sciNum (q : ℚ) : Nat :=
  if (roundEven (|q| * 10 ^ (5 - Int.log 10 |q|))).toNat = 10 ^ 6 then 10 ^ 5
  else (roundEven (|q| * 10 ^ (5 - Int.log 10 |q|))).toNat

theorem showDouble_eq {q : ℚ} (h : q ≠ 0) : showDouble q =
    if -4 ≤ sciExp q ∧ sciExp q < 6 then
      (if q < 0 then ['-'] else []) ++ showDec (stripZeros (sciNum q) (5 - sciExp q).toNat).1
        (stripZeros (sciNum q) (5 - sciExp q).toNat).2
    else
      (if q < 0 then ['-'] else []) ++ showDec (stripZeros (sciNum q) 5).1 (stripZeros (sciNum q) 5).2 ++
        ['e', if sciExp q < 0 then '-' else '+'] ++ showExp (sciExp q).natAbs := by
  rw [showDouble, if_neg h]
  rfl

theorem showDouble_congr {q y : ℚ} (hq : q ≠ 0) (hy : y ≠ 0) (hs : q < 0 ↔ y < 0) (he : sciExp q = sciExp y)
    (hn : sciNum q = sciNum y) : showDouble q = showDouble y := by
  rw [showDouble_eq hq, showDouble_eq hy, he, hn]
  by_cases h : q < 0
  · rw [if_pos h, if_pos (hs.mp h)]
  · rw [if_neg h, if_neg (fun h' => h (hs.mpr h'))]

theorem ten_zpow_pos (e : Int) : (0 : ℚ) < 10 ^ e := zpow_pos (by norm_num) e

theorem log10_le {q : ℚ} (h : q ≠ 0) : (10 : ℚ) ^ Int.log 10 |q| ≤ |q| := by
  have := Int.zpow_log_le_self (b := 10) (r := |q|) (by norm_num) (abs_pos.mpr h)
  exact_mod_cast this

theorem lt_log10 (q : ℚ) : |q| < (10 : ℚ) ^ (Int.log 10 |q| + 1) := by
  have := Int.lt_zpow_succ_log_self (b := 10) (by norm_num) |q|
  exact_mod_cast this

/-- The logarithm is determined by the decade. -/
theorem log10_eq {a : ℚ} {k : Int} (h1 : (10 : ℚ) ^ k ≤ a) (h2 : a < 10 ^ (k + 1)) : Int.log 10 a = k := by
  have ha : 0 < a := lt_of_lt_of_le (ten_zpow_pos k) h1
  have a1 : (10 : ℚ) ^ Int.log 10 a ≤ a := by
    have := Int.zpow_log_le_self (b := 10) (r := a) (by norm_num) ha
    exact_mod_cast this
  have a2 : a < (10 : ℚ) ^ (Int.log 10 a + 1) := by
    have := Int.lt_zpow_succ_log_self (b := 10) (by norm_num) a
    exact_mod_cast this
  have b1 := (zpow_lt_zpow_iff_right₀ (by norm_num : (1 : ℚ) < 10)).mp (lt_of_le_of_lt h1 a2)
  have b2 := (zpow_lt_zpow_iff_right₀ (by norm_num : (1 : ℚ) < 10)).mp (lt_of_le_of_lt a1 h2)
  omega

/-- The scaled number has six digits before the point. -/
theorem scaled_bounds {q : ℚ} (h : q ≠ 0) :
    10 ^ 5 ≤ |q| * 10 ^ (5 - Int.log 10 |q|) ∧ |q| * 10 ^ (5 - Int.log 10 |q|) < 10 ^ 6 := by
  have hp := ten_zpow_pos (5 - Int.log 10 |q|)
  constructor
  · calc (10 : ℚ) ^ 5 = 10 ^ Int.log 10 |q| * 10 ^ (5 - Int.log 10 |q|) := by
          rw [← zpow_add₀ (by norm_num), show Int.log 10 |q| + (5 - Int.log 10 |q|) = 5 by ring]; norm_num
      _ ≤ _ := mul_le_mul_of_nonneg_right (log10_le h) hp.le
  · calc |q| * 10 ^ (5 - Int.log 10 |q|) < 10 ^ (Int.log 10 |q| + 1) * 10 ^ (5 - Int.log 10 |q|) :=
          mul_lt_mul_of_pos_right (lt_log10 q) hp
      _ = 10 ^ 6 := by
          rw [← zpow_add₀ (by norm_num), show Int.log 10 |q| + 1 + (5 - Int.log 10 |q|) = 6 by ring]; norm_num

theorem sciNum_bounds {q : ℚ} (h : q ≠ 0) : 10 ^ 5 ≤ sciNum q ∧ sciNum q < 10 ^ 6 := by
  obtain ⟨h1, h2⟩ := scaled_bounds h
  have a1 : (10 ^ 5 : Int) ≤ roundEven (|q| * 10 ^ (5 - Int.log 10 |q|)) := roundEven_ge (by push_cast; exact h1)
  have a2 : roundEven (|q| * 10 ^ (5 - Int.log 10 |q|)) ≤ (10 ^ 6 : Int) := roundEven_le (by push_cast; exact h2.le)
  unfold sciNum
  generalize roundEven (|q| * 10 ^ (5 - Int.log 10 |q|)) = r at a1 a2
  split <;> omega

/-- The number that is printed. -/
def printed (q : ℚ) : ℚ := if q = 0 then 0 else (if q < 0 then -1 else 1) * (sciNum q * 10 ^ (sciExp q - 5))

theorem printed_abs {q : ℚ} (h : q ≠ 0) : |printed q| = sciNum q * 10 ^ (sciExp q - 5) := by
  have hp := ten_zpow_pos (sciExp q - 5)
  rw [printed, if_neg h, abs_mul, abs_of_nonneg (by positivity : (0 : ℚ) ≤ sciNum q * 10 ^ (sciExp q - 5))]
  split <;> simp

theorem printed_sign {q : ℚ} (h : q ≠ 0) : printed q ≠ 0 ∧ (q < 0 ↔ printed q < 0) := by
  have hp := ten_zpow_pos (sciExp q - 5)
  have hn := (sciNum_bounds h).1
  have hn' : (0 : ℚ) < sciNum q := by exact_mod_cast (by omega : 0 < sciNum q)
  have hpos : (0 : ℚ) < sciNum q * 10 ^ (sciExp q - 5) := mul_pos hn' hp
  rw [printed, if_neg h]
  by_cases hq : q < 0
  · rw [if_pos hq]
    refine ⟨by intro hc; linarith, by constructor <;> intro _ <;> linarith⟩
  · rw [if_neg hq]
    refine ⟨by intro hc; linarith, by constructor <;> intro _ <;> linarith⟩

theorem printed_six (q : ℚ) : SixDigits (printed q) := by
  by_cases h : q = 0
  · rw [printed, if_pos h]; exact ⟨0, 0, by norm_num, by norm_num⟩
  · rw [printed, if_neg h]
    have hn := (sciNum_bounds h).2
    refine ⟨(if q < 0 then -1 else 1) * sciNum q, sciExp q - 5, ?_, ?_⟩
    · rw [abs_mul]
      have : |(if q < 0 then -1 else 1 : Int)| = 1 := by split <;> norm_num
      rw [this, one_mul, abs_of_nonneg (by omega)]
      exact_mod_cast hn
    · push_cast; ring

theorem printed_scaled {q : ℚ} (h : q ≠ 0) :
    printed q = (if q < 0 then -1 else 1) * (roundEven (|q| * 10 ^ (5 - Int.log 10 |q|)) * 10 ^ (Int.log 10 |q| - 5)) := by
  obtain ⟨h1, h2⟩ := scaled_bounds h
  have a1 : (10 ^ 5 : Int) ≤ roundEven (|q| * 10 ^ (5 - Int.log 10 |q|)) := roundEven_ge (by push_cast; exact h1)
  rw [printed, if_neg h]
  congr 1
  unfold sciNum sciExp
  generalize roundEven (|q| * 10 ^ (5 - Int.log 10 |q|)) = r at a1
  have hr : ((r.toNat : Nat) : ℚ) = r := by exact_mod_cast Int.toNat_of_nonneg (by omega : 0 ≤ r)
  split
  · rename_i he
    rw [← hr, he, show Int.log 10 |q| + 1 - 5 = 1 + (Int.log 10 |q| - 5) by ring, zpow_add₀ (by norm_num)]
    push_cast
    ring
  · rw [hr]

/-- The printed number is near. -/
theorem printed_err (q : ℚ) : |printed q - q| ≤ 5e-6 * |q| := by
  by_cases h : q = 0
  · subst h; simp [printed]
  · have hp := ten_zpow_pos (Int.log 10 |q| - 5)
    have hs : q = (if q < 0 then -1 else 1) * (|q| * 10 ^ (5 - Int.log 10 |q|) * 10 ^ (Int.log 10 |q| - 5)) := by
      rw [mul_assoc, ← zpow_add₀ (by norm_num), show 5 - Int.log 10 |q| + (Int.log 10 |q| - 5) = 0 by ring]
      split
      · rename_i hn; rw [abs_of_neg hn]; simp
      · rename_i hn; rw [abs_of_nonneg (not_lt.mp hn)]; simp
    have hn := roundEven_near (|q| * 10 ^ (5 - Int.log 10 |q|))
    have e : printed q - q = (if q < 0 then -1 else 1) *
        ((roundEven (|q| * 10 ^ (5 - Int.log 10 |q|)) - |q| * 10 ^ (5 - Int.log 10 |q|)) * 10 ^ (Int.log 10 |q| - 5)) := by
      rw [printed_scaled h]
      conv_lhs => rhs; rw [hs]
      ring
    have e1 : |(if q < 0 then -1 else 1 : ℚ)| = 1 := by split <;> norm_num
    rw [e, abs_mul, e1, one_mul, abs_mul, abs_of_pos hp]
    have h1 := mul_le_mul_of_nonneg_right hn hp.le
    have h2 : (10 : ℚ) ^ (Int.log 10 |q| - 5) ≤ 1e-5 * |q| := by
      rw [zpow_sub₀ (by norm_num)]
      have := log10_le h
      have e5 : (10 : ℚ) ^ (5 : Int) = 100000 := by norm_num
      rw [e5]
      linarith
    linarith

/-- Digits and exponent of a number near a number of six digits. -/
theorem sci_of_near {v y : ℚ} {N : Nat} {x : Int} (hN1 : 10 ^ 5 ≤ N) (hN2 : N < 10 ^ 6) (hv : |v| = N * 10 ^ (x - 5))
    (hy : |(|y| - |v|)| ≤ 1e-8 * |v|) : sciExp y = x ∧ sciNum y = N := by
  have hp := ten_zpow_pos (x - 5)
  have n1 : (10 : ℚ) ^ 5 ≤ N := by exact_mod_cast hN1
  have n2 : (N : ℚ) ≤ 10 ^ 6 - 1 := by
    have : N + 1 ≤ 10 ^ 6 := hN2
    have : (N : ℚ) + 1 ≤ 10 ^ 6 := by exact_mod_cast this
    linarith
  -- `|y|` in units of the sixth digit
  obtain ⟨z, hz⟩ : ∃ z, z = |y| / 10 ^ (x - 5) := ⟨_, rfl⟩
  have hyz : |y| = z * 10 ^ (x - 5) := by rw [hz, div_mul_cancel₀ _ hp.ne']
  have hzN : |z - N| ≤ 1e-2 := by
    rw [hyz, hv, ← sub_mul, abs_mul, abs_of_pos hp, ← mul_assoc] at hy
    have := le_of_mul_le_mul_right hy hp
    linarith
  obtain ⟨z1, z2⟩ := abs_le.mp hzN
  have up : |y| < 10 ^ (x + 1) := by
    have : (10 : ℚ) ^ (x + 1) = 10 ^ 6 * 10 ^ (x - 5) := by
      rw [show x + 1 = 6 + (x - 5) by ring, zpow_add₀ (by norm_num)]; norm_num
    rw [hyz, this]
    exact mul_lt_mul_of_pos_right (by linarith) hp
  by_cases hlow : (10 : ℚ) ^ x ≤ |y|
  · have hl := log10_eq hlow up
    have hsc : |y| * 10 ^ (5 - x) = z := by
      rw [hyz, mul_assoc, ← zpow_add₀ (by norm_num), show x - 5 + (5 - x) = 0 by ring, zpow_zero, mul_one]
    have hr : roundEven (|y| * 10 ^ (5 - x)) = (N : Int) := by
      apply roundEven_of_near
      rw [hsc]
      push_cast
      exact lt_of_le_of_lt hzN (by norm_num)
    unfold sciExp sciNum
    rw [hl, hr]
    have : (N : Int).toNat ≠ 10 ^ 6 := by simp; omega
    rw [if_neg this, if_neg this]
    exact ⟨rfl, by simp⟩
  · rw [not_le] at hlow
    have ex : (10 : ℚ) ^ x = 10 ^ 5 * 10 ^ (x - 5) := by
      rw [show x = 5 + (x - 5) by ring, zpow_add₀ (by norm_num), show 5 + (x - 5) - 5 = x - 5 by ring]; norm_num
    have hz5 : z < 10 ^ 5 := by
      rw [hyz, ex] at hlow
      exact lt_of_mul_lt_mul_right hlow hp.le
    have hN : N = 10 ^ 5 := by
      have : (N : ℚ) < 10 ^ 5 + 1 := by linarith
      have : N < 10 ^ 5 + 1 := by exact_mod_cast this
      omega
    have low : (10 : ℚ) ^ (x - 1) ≤ |y| := by
      have : (10 : ℚ) ^ (x - 1) = 10 ^ 4 * 10 ^ (x - 5) := by
        rw [show x - 1 = 4 + (x - 5) by ring, zpow_add₀ (by norm_num)]; norm_num
      rw [hyz, this]
      exact mul_le_mul_of_nonneg_right (by linarith) hp.le
    have hl := log10_eq low (by rw [show x - 1 + 1 = x by ring]; exact hlow)
    have hsc : |y| * 10 ^ (5 - (x - 1)) = 10 * z := by
      rw [hyz, mul_assoc, ← zpow_add₀ (by norm_num), show x - 5 + (5 - (x - 1)) = 1 by ring, zpow_one]; ring
    have hr : roundEven (|y| * 10 ^ (5 - (x - 1))) = (10 ^ 6 : Int) := by
      apply roundEven_of_near
      rw [hsc]
      push_cast
      subst hN
      push_cast at z1 z2
      rw [abs_lt]
      constructor <;> linarith
    unfold sciExp sciNum
    rw [hl, hr]
    simp [hN]

/-- Printing rounds to a number of six digits and prints that. -/
theorem showDouble_printed (q : ℚ) : showDouble (printed q) = showDouble q := by
  by_cases h : q = 0
  · subst h; simp [printed]
  · obtain ⟨h0, hs⟩ := printed_sign h
    obtain ⟨n1, n2⟩ := sciNum_bounds h
    have ha := printed_abs h
    obtain ⟨e1, e2⟩ := sci_of_near (v := printed q) (y := printed q) n1 n2 ha (by rw [sub_self, abs_zero]; positivity)
    exact showDouble_congr h0 h hs.symm e1 e2

/-- A number near one of six digits is printed as that. -/
theorem showDouble_of_near {v y : ℚ} (hv : SixDigits v) (hy : |y - v| ≤ 1e-8 * |v|) : showDouble y = showDouble v := by
  by_cases h : v = 0
  · subst h
    rw [abs_zero, mul_zero, sub_zero] at hy
    rw [abs_nonpos_iff.mp hy]
  · have hvp : 0 < |v| := abs_pos.mpr h
    obtain ⟨N, hN, hs⟩ := sixDigits_scaled hv h
    have hb := scaled_bounds h
    rw [hs] at hb
    have hN1 : 10 ^ 5 ≤ N := by exact_mod_cast hb.1
    have ha : |v| = N * 10 ^ (Int.log 10 |v| - 5) := by
      rw [← hs, mul_assoc, ← zpow_add₀ (by norm_num)]
      simp
    have hn := (abs_abs_sub_abs_le y v).trans hy
    obtain ⟨e1, e2⟩ := sci_of_near hN1 hN ha hn
    obtain ⟨f1, f2⟩ := sci_of_near (v := v) (y := v) hN1 hN ha (by rw [sub_self, abs_zero]; positivity)
    obtain ⟨y1, y2⟩ := abs_le.mp hy
    have hy0 : y ≠ 0 := by
      rintro rfl
      rw [zero_sub, abs_neg] at hy
      linarith
    refine showDouble_congr hy0 h ?_ (e1.trans f1.symm) (e2.trans f2.symm)
    rcases lt_or_gt_of_ne h with hneg | hpos
    · rw [abs_of_neg hneg] at y1 y2
      constructor <;> intro _ <;> linarith
    · rw [abs_of_pos hpos] at y1 y2
      constructor <;> intro _ <;> linarith

end Verif
