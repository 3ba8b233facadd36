import Mathlib.Tactic.Linarith
import Mathlib.Tactic.FieldSimp
import Verif.Model.Placement
import Verif.Lemmas.Orbit
import Verif.Lemmas.OrbitSched
/-!
# Closed forms of the allocators
-/

namespace Verif
open Real

theorem takeN_closed {α σ : Type} {next : σ → Outcome (α × σ)} (st : Nat → σ) (out : Nat → α) (n k : Nat)
    (h : ∀ i, i < n → next (st (k + i)) = .ok (out (k + i), st (k + i + 1))) :
    takeN next n (st k) = .ok ((List.range' k n).map out, st (k + n)) := by
  induction n generalizing k with
  | zero => rfl
  | succ n ih =>
    have h0 := h 0 (by omega)
    simp only [Nat.add_zero] at h0
    have := ih (k + 1) (fun i hi => by
      have := h (i + 1) (by omega)
      rw [show k + 1 + i = k + (i + 1) by omega]
      exact this)
    simp only [takeN, h0, Outcome.ok_bind, this, List.range'_succ, List.map_cons]
    rw [show k + 1 + n = k + (n + 1) by omega]

/-- The circular allocator after `n` calls. -/
abbrev circAt (O S n : Nat) : CircAlloc := ⟨O, S, (n / S) % O, n % S⟩

/-- Row and column arithmetic of a counter that runs through `S` values and then carries. -/
theorem carry {S : Nat} (hS : 0 < S) (n : Nat) :
    (n % S + 1 = S → (n + 1) % S = 0 ∧ (n + 1) / S = n / S + 1) ∧
    (n % S + 1 ≠ S → (n + 1) % S = n % S + 1 ∧ (n + 1) / S = n / S) := by
  have h1 := Nat.div_add_mod n S
  have h2 := Nat.mod_lt n hS
  constructor
  · intro h
    have e : n + 1 = S * (n / S + 1) := by rw [Nat.mul_add]; omega
    constructor
    · rw [e]; exact Nat.mul_mod_right _ _
    · rw [e]; exact Nat.mul_div_cancel_left _ hS
  · intro h
    have e : n + 1 = (n % S + 1) + S * (n / S) := by omega
    have hlt : n % S + 1 < S := by omega
    constructor
    · conv_lhs => rw [e]
      rw [Nat.add_mul_mod_self_left, Nat.mod_eq_of_lt hlt]
    · conv_lhs => rw [e]
      rw [Nat.add_mul_div_left _ _ hS, Nat.div_eq_of_lt hlt, Nat.zero_add]

theorem circ_next {O S : Nat} (hO : 0 < O) (hS : 0 < S) (n : Nat) :
    (circAt O S n).next =
      .ok (some ⟨2 * Real.pi * (((n / S) % O : Nat) / (O : ℝ)), 2 * Real.pi * ((n % S : Nat) / (S : ℝ)), 0⟩, circAt O S (n + 1)) := by
  have hc := carry hS n
  simp only [CircAlloc.next, circAt]
  have c1 : ¬ (O = 0 ∨ S = 0) := by omega
  have c2 : ¬ S = 0 := by omega
  have c3 : ¬ O = 0 := by omega
  simp only [if_neg c1, if_neg c2, if_neg c3]
  split
  · rename_i h
    obtain ⟨e1, e2⟩ := hc.1 h
    rw [e1, e2, h, Nat.mod_self, Nat.mod_add_mod]
  · rename_i h
    obtain ⟨e1, e2⟩ := hc.2 h
    have hlt : (n % S + 1) % S = n % S + 1 := Nat.mod_eq_of_lt (by have := Nat.mod_lt n hS; omega)
    rw [e1, e2, hlt]

/-- The polar allocator after `n` calls. -/
abbrev polarAt (L M n : Nat) : PolarAlloc := ⟨L, M, n % (L + 1), (n / (L + 1)) % M⟩

/-- The point of row `i` and column `j` of the grid. -/
noncomputable def gridPoint (L M i j : Nat) : Vec :=
  ⟨gndRad * sin (i * (Real.pi / L)) * cos (j * (2 * Real.pi / M)),
   gndRad * sin (i * (Real.pi / L)) * sin (j * (2 * Real.pi / M)), gndRad * cos (i * (Real.pi / L))⟩

theorem polar_next {L M : Nat} (hL : 0 < L) (hM : 0 < M) (hL' : L + 1 < 2 ^ 32) (hM' : M < 2 ^ 32) (n : Nat) :
    (polarAt L M n).next = .ok (some (gridPoint L M (n % (L + 1)) ((n / (L + 1)) % M)), polarAt L M (n + 1)) := by
  have hc := carry (S := L + 1) (by omega) n
  have h1 := Nat.mod_lt n (show L + 1 > 0 by omega)
  have h2 := Nat.mod_lt (n / (L + 1)) hM
  simp only [PolarAlloc.next, polarAt]
  have c1 : ¬ (L = 0 ∨ M = 0) := by omega
  have c3 : ¬ M = 0 := by omega
  have c4 : (n % (L + 1) + 1) % 2 ^ 32 = n % (L + 1) + 1 := Nat.mod_eq_of_lt (by omega)
  have c5 : (n / (L + 1) % M + 1) % 2 ^ 32 = n / (L + 1) % M + 1 := Nat.mod_eq_of_lt (by omega)
  simp only [if_neg c1, if_neg c3, c4, c5]
  by_cases h : n % (L + 1) + 1 = L + 1
  · obtain ⟨e1, e2⟩ := hc.1 h
    rw [if_pos (by omega), e1, e2, Nat.mod_add_mod]
    rfl
  · obtain ⟨e1, e2⟩ := hc.2 h
    rw [if_neg (by omega), e1, e2]
    rfl

theorem gndRad_pos : 0 < gndRad := by unfold gndRad; norm_num

/-- Spherical coordinates have the radius of the sphere. -/
theorem len_spherical (a b : ℝ) : (⟨gndRad * sin a * cos b, gndRad * sin a * sin b, gndRad * cos a⟩ : Vec).len = gndRad := by
  apply len_eq gndRad_pos.le
  simp only [dot]
  have h1 := sin_sq_add_cos_sq a
  have h2 := sin_sq_add_cos_sq b
  linear_combination gndRad ^ 2 * sin a ^ 2 * h2 + gndRad ^ 2 * h1

/-- Equal directions within one turn are the same angle. -/
theorem angle_unique {x y : ℝ} (hx : 0 ≤ x ∧ x < 2 * Real.pi) (hy : 0 ≤ y ∧ y < 2 * Real.pi) (hc : cos x = cos y)
    (hs : sin x = sin y) : x = y := by
  have h1 : cos (x - y) = 1 := by
    rw [cos_sub, hc, hs]
    have := sin_sq_add_cos_sq y
    nlinarith
  have := (Real.cos_eq_one_iff_of_lt_of_lt (by linarith [hx.1, hy.2]) (by linarith [hx.2, hy.1])).mp h1
  linarith

end Verif
