import Verif.Lemmas.Track
import Verif.Lemmas.Order
/-!
# Places along waypoints
-/

namespace Verif
open Spec

theorem place_drop : ∀ (pre : List WSample) (a : WSample) (l : List WSample) (t : Int), Increasing (pre ++ a :: l) → a.time ≤ t →
    place (pre ++ a :: l) t = place (a :: l) t := by
  intro pre
  induction pre with
  | nil => intro a l t _ _; rfl
  | cons p pre ih =>
    intro a l t hi ht
    obtain ⟨h1, h2⟩ := List.pairwise_cons.mp (show List.Pairwise _ (p :: (pre ++ a :: l)) from hi)
    cases pre with
    | nil => exact place_later ht
    | cons q pre =>
      have hq : q.time ≤ t := by
        have := (List.pairwise_cons.mp (show List.Pairwise _ (q :: (pre ++ a :: l)) from h2)).1 a (by simp)
        omega
      exact (place_later hq).trans (ih a l t h2 ht)

theorem place_at {l : List WSample} (hi : Increasing l) {s : WSample} (hs : s ∈ l) : place l s.time = spot s := by
  obtain ⟨pre, suf, rfl⟩ := List.append_of_mem hs
  rw [place_drop _ _ _ _ hi le_rfl]
  cases suf with
  | nil => rfl
  | cons b suf =>
    obtain ⟨_, h, _⟩ := List.pairwise_append.mp hi
    have := (List.pairwise_cons.mp h).1 b (by simp)
    exact place_before this le_rfl

theorem place_first {a : WSample} {l : List WSample} (hi : Increasing (a :: l)) {t : Int} (ht : t ≤ a.time) : place (a :: l) t = spot a := by
  cases l with
  | nil => rfl
  | cons b l =>
    have := (List.pairwise_cons.mp hi).1 b (by simp)
    exact place_before (by omega) ht

theorem place_last {a : WSample} {l : List WSample} (hi : Increasing (l ++ [a])) {t : Int} (ht : a.time ≤ t) : place (l ++ [a]) t = spot a := by
  rw [place_drop _ _ _ _ hi ht]
  rfl

/-- Between two waypoints. -/
theorem place_between {a b : WSample} {l : List WSample} (hi : Increasing l) (hn : Next a b l) {t : Int} (h1 : a.time ≤ t) (h2 : t ≤ b.time) :
    a.time < b.time ∧ place l t =
      (a.x + (b.x - a.x) * (((t - a.time : Int) : ℚ) / ((b.time - a.time : Int) : ℚ)),
        a.y + (b.y - a.y) * (((t - a.time : Int) : ℚ) / ((b.time - a.time : Int) : ℚ)),
        a.z + (b.z - a.z) * (((t - a.time : Int) : ℚ) / ((b.time - a.time : Int) : ℚ))) := by
  obtain ⟨pre, suf, rfl⟩ := hn
  have hab : a.time < b.time := by
    obtain ⟨_, h, _⟩ := List.pairwise_append.mp hi
    exact (List.pairwise_cons.mp h).1 b (by simp)
  refine ⟨hab, ?_⟩
  have hne : ((b.time - a.time : Int) : ℚ) ≠ 0 := by
    have : b.time - a.time ≠ 0 := by omega
    exact_mod_cast this
  rcases eq_or_lt_of_le h2 with rfl | h2
  · rw [place_at hi (by simp), div_self hne]
    simp [spot]
  · rw [place_drop _ _ _ _ hi h1]
    simp only [place, interp, if_pos h2]
    rcases eq_or_lt_of_le h1 with rfl | h1
    · simp
    · simp only [if_neg (not_le.mpr h1)]
      refine Prod.ext ?_ (Prod.ext ?_ ?_) <;> simp only <;> ring

theorem increasing_tail {a : WSample} {l : List WSample} (h : Increasing (a :: l)) : Increasing l := (List.pairwise_cons.mp h).2

/-- The time spent behind the first waypoint, on the first segment. -/
theorem place_segment {a b : WSample} {l : List WSample} (hab : a.time < b.time) {t : Int} (ht : t ≤ b.time)
    (hl : Increasing (a :: b :: l)) :
    place (a :: b :: l) t =
      (a.x + (b.x - a.x) / ((b.time - a.time : Int) : ℚ) * ((max 0 (t - a.time) : Int) : ℚ),
        a.y + (b.y - a.y) / ((b.time - a.time : Int) : ℚ) * ((max 0 (t - a.time) : Int) : ℚ),
        a.z + (b.z - a.z) / ((b.time - a.time : Int) : ℚ) * ((max 0 (t - a.time) : Int) : ℚ)) := by
  rcases le_or_gt t a.time with h | h
  · rw [place_first hl h, max_eq_left (by omega)]
    simp [spot]
  · rw [(place_between hl ⟨[], l, rfl⟩ h.le ht).2, max_eq_right (by omega)]
    refine Prod.ext ?_ (Prod.ext ?_ ?_) <;> simp only <;> ring

theorem toVec_sub (p q : ℚ × ℚ × ℚ) : toVec p - toVec q = ⟨((p.1 - q.1 : ℚ) : ℝ), ((p.2.1 - q.2.1 : ℚ) : ℝ), ((p.2.2 - q.2.2 : ℚ) : ℝ)⟩ := by
  apply Vec.ext <;> simp [toVec, sub_x, sub_y, sub_z]

theorem len_scale (k : ℝ) (v : Vec) : (⟨k * v.x, k * v.y, k * v.z⟩ : Vec).len = |k| * v.len := by
  unfold Vec.len
  simp only
  rw [show k * v.x * (k * v.x) + k * v.y * (k * v.y) + k * v.z * (k * v.z) = k ^ 2 * (v.x * v.x + v.y * v.y + v.z * v.z) by ring,
    Real.sqrt_mul (sq_nonneg k), Real.sqrt_sq_eq_abs]

/-- Along waypoints a satellite is no faster than on its fastest segment. -/
theorem slower_track {V : ℝ} (hV : 0 ≤ V) : ∀ (l : List WSample), Increasing l →
    (∀ a b, Next a b l → (toVec (spot b) - toVec (spot a)).len ≤ V * (((b.time - a.time : Int) : ℝ) / 1000000000)) →
    ∀ t u : Int, u ≤ t → (toVec (place l t) - toVec (place l u)).len ≤ V * (((t - u : Int) : ℝ) / 1000000000) := by
  have zero : ∀ (p : ℚ × ℚ × ℚ) (t u : Int), u ≤ t → (toVec p - toVec p).len ≤ V * (((t - u : Int) : ℝ) / 1000000000) := by
    intro p t u h
    have : (0 : ℝ) ≤ ((t - u : Int) : ℝ) := by exact_mod_cast (show (0 : Int) ≤ t - u by omega)
    rw [toVec_sub]
    simp only [sub_self, Rat.cast_zero, Vec.len, mul_zero, add_zero, Real.sqrt_zero]
    positivity
  intro l
  induction l with
  | nil => intro _ _ t u h; exact zero _ t u h
  | cons a l ih =>
    intro hi hn
    cases l with
    | nil => intro t u h; exact zero _ t u h
    | cons b l =>
      have hab : a.time < b.time := (List.pairwise_cons.mp hi).1 b (by simp)
      have ih := ih (increasing_tail hi) (by
        rintro c d ⟨pre, suf, e⟩
        exact hn c d ⟨a :: pre, suf, by rw [e]; rfl⟩)
      have seg : ∀ t u : Int, u ≤ t → t ≤ b.time →
          (toVec (place (a :: b :: l) t) - toVec (place (a :: b :: l) u)).len ≤ V * (((t - u : Int) : ℝ) / 1000000000) := by
        intro t u hut htb
        have hs := hn a b ⟨[], l, rfl⟩
        rw [toVec_sub] at hs ⊢
        rw [place_segment hab htb hi, place_segment hab (hut.trans htb) hi]
        have hD : (0 : ℝ) < ((b.time - a.time : Int) : ℝ) := by exact_mod_cast (show (0 : Int) < b.time - a.time by omega)
        set D : ℝ := ((b.time - a.time : Int) : ℝ) with hDdef
        set e : Int := max 0 (t - a.time) - max 0 (u - a.time) with he
        have he0 : 0 ≤ e := by omega
        have he1 : e ≤ t - u := by omega
        have key : ∀ x y : ℚ, ((x + (y - x) / ((b.time - a.time : Int) : ℚ) * ((max 0 (t - a.time) : Int) : ℚ) -
            (x + (y - x) / ((b.time - a.time : Int) : ℚ) * ((max 0 (u - a.time) : Int) : ℚ)) : ℚ) : ℝ) =
            (e : ℝ) / D * ((y - x : ℚ) : ℝ) := by
          intro x y
          rw [he, hDdef]
          push_cast
          ring
        simp only [key]
        have := len_scale ((e : ℝ) / D) ⟨((b.x - a.x : ℚ) : ℝ), ((b.y - a.y : ℚ) : ℝ), ((b.z - a.z : ℚ) : ℝ)⟩
        simp only at this
        rw [this]
        have he0' : (0 : ℝ) ≤ (e : ℝ) := by exact_mod_cast he0
        have he1' : (e : ℝ) ≤ ((t - u : Int) : ℝ) := by exact_mod_cast he1
        rw [abs_of_nonneg (by positivity)]
        refine (mul_le_mul_of_nonneg_left hs (by positivity)).trans ?_
        rw [show (e : ℝ) / D * (V * (D / 1000000000)) = V * ((e : ℝ) / 1000000000) by field_simp]
        gcongr
      intro t u hut
      rcases le_or_gt t b.time with ht | ht
      · exact seg t u hut ht
      · rcases le_or_gt b.time u with hu | hu
        · have := ih t u hut
          rwa [← place_later (a := a) ht.le, ← place_later (a := a) hu] at this
        · have h1 := ih t b.time ht.le
          rw [← place_later (a := a) ht.le, ← place_later (a := a) (le_refl b.time)] at h1
          have h2 := seg b.time u hu.le le_rfl
          have h3 := len_add_le (toVec (place (a :: b :: l) t) - toVec (place (a :: b :: l) b.time))
            (toVec (place (a :: b :: l) b.time) - toVec (place (a :: b :: l) u))
          have e : toVec (place (a :: b :: l) t) - toVec (place (a :: b :: l) u) =
              (toVec (place (a :: b :: l) t) - toVec (place (a :: b :: l) b.time)) +
              (toVec (place (a :: b :: l) b.time) - toVec (place (a :: b :: l) u)) := by
            apply Vec.ext <;> simp only [add_x, add_y, add_z, sub_x, sub_y, sub_z] <;> ring
          rw [e]
          have hc : V * (((t - b.time : Int) : ℝ) / 1000000000) + V * (((b.time - u : Int) : ℝ) / 1000000000) =
              V * (((t - u : Int) : ℝ) / 1000000000) := by
            push_cast
            ring
          linarith

/-- A point of a straight line: its squared distance from the origin. -/
theorem line_sq {a b p : ℚ × ℚ × ℚ} {k : ℚ}
    (hp : p = (a.1 + (b.1 - a.1) * k, a.2.1 + (b.2.1 - a.2.1) * k, a.2.2 + (b.2.2 - a.2.2) * k)) :
    (toVec p).len ^ 2 = (1 - k) * (toVec a).len ^ 2 + k * (toVec b).len ^ 2 - k * (1 - k) * (toVec b - toVec a).len ^ 2 := by
  have sq : ∀ v : Vec, v.len ^ 2 = v.x * v.x + v.y * v.y + v.z * v.z := fun v => by
    unfold Vec.len
    exact Real.sq_sqrt (by nlinarith [mul_self_nonneg v.x, mul_self_nonneg v.y, mul_self_nonneg v.z])
  rw [sq, sq, sq, sq, hp]
  simp only [toVec, sub_x, sub_y, sub_z]
  push_cast
  ring

end Verif
