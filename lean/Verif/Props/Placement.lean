import Mathlib.Data.List.Nodup
import Verif.Lemmas.Placement
import Verif.Props.OrbitSched
/-!
# Placement of satellites and ground nodes: C40-C43, C53
-/

namespace Verif
open Real

/-! ## C40 -/

/-- Slot of satellite `k` on orbit `o`: angle of the orbital plane and angle along the orbit. -/
noncomputable def Spec.slot (O S o k : Nat) : Vec := ⟨2 * Real.pi * o / O, 2 * Real.pi * k / S, 0⟩

theorem slot_inj {O S o k o' k' : Nat} (hO : 0 < O) (hS : 0 < S) (h : Spec.slot O S o k = Spec.slot O S o' k') :
    o = o' ∧ k = k' := by
  have hpi := Real.pi_pos
  have hO' : (0 : ℝ) < O := by exact_mod_cast hO
  have hS' : (0 : ℝ) < S := by exact_mod_cast hS
  injection h with h1 h2 _
  constructor
  · rw [div_left_inj' hO'.ne', mul_right_inj' (by positivity)] at h1
    exact_mod_cast h1
  · rw [div_left_inj' hS'.ne', mul_right_inj' (by positivity)] at h2
    exact_mod_cast h2

/-- C40: call number `n` (from 0) returns the slot of orbit `(n / S) mod O` and satellite `n mod S`: the satellites
of one orbit come consecutively, and after `O * S` calls the sequence repeats. -/
theorem C40_nth_call {O S : Nat} (hO : 0 < O) (hS : 0 < S) (n : Nat) :
    ∃ a, takeN CircAlloc.next n (CircAlloc.create O S) =
      .ok ((List.range n).map (fun i => some (Spec.slot O S ((i / S) % O) (i % S))), a) := by
  refine ⟨circAt O S n, ?_⟩
  have h0 : CircAlloc.create O S = circAt O S 0 := by simp [CircAlloc.create, circAt]
  rw [h0, takeN_closed (circAt O S) (fun i => some (Spec.slot O S ((i / S) % O) (i % S))) n 0]
  · rw [List.range_eq_range', Nat.zero_add]
  · intro i _
    rw [Nat.zero_add, circ_next hO hS]
    simp only [Spec.slot, mul_div_assoc]

theorem row_col_mod {S O : Nat} (n o k : Nat) (ho : o < O) (hk : k < S) :
    ((n / S) % O = o ∧ n % S = k) ↔ n % (S * O) = k + S * o := by
  rw [Nat.mod_mul]
  constructor
  · rintro ⟨h1, h2⟩; rw [h1, h2]
  · intro h
    have hS : 0 < S := by omega
    have h2 : n % S = k := by
      have := congrArg (· % S) h
      simp only [Nat.add_mul_mod_self_left, Nat.mod_mod, Nat.mod_eq_of_lt hk] at this
      exact this
    rw [h2] at h
    exact ⟨Nat.eq_of_mul_eq_mul_left hS (by omega), h2⟩

theorem residue_once (k M r : Nat) (hr : r < M) : ∃! i, i < M ∧ (k + i) % M = r := by
  have hM : 0 < M := by omega
  have hk := Nat.mod_lt k hM
  have hkd := Nat.div_add_mod k M
  have red : ∀ i, (k + i) % M = (k % M + i) % M := fun i => by rw [Nat.mod_add_mod]
  by_cases hle : k % M ≤ r
  · refine ⟨r - k % M, ⟨by omega, ?_⟩, ?_⟩
    · rw [red, Nat.add_sub_cancel' hle, Nat.mod_eq_of_lt hr]
    · rintro i ⟨hi, h⟩
      rw [red] at h
      rcases Nat.lt_or_ge (k % M + i) M with h' | h'
      · rw [Nat.mod_eq_of_lt h'] at h; omega
      · rw [Nat.mod_eq_sub_mod h', Nat.mod_eq_of_lt (by omega)] at h; omega
  · refine ⟨r + M - k % M, ⟨by omega, ?_⟩, ?_⟩
    · rw [red, show k % M + (r + M - k % M) = r + M by omega, Nat.add_mod_right, Nat.mod_eq_of_lt hr]
    · rintro i ⟨hi, h⟩
      rw [red] at h
      rcases Nat.lt_or_ge (k % M + i) M with h' | h'
      · rw [Nat.mod_eq_of_lt h'] at h; omega
      · rw [Nat.mod_eq_sub_mod h', Nat.mod_eq_of_lt (by omega)] at h; omega

/-- C40: among any `O * S` consecutive calls (after any number `k` of calls), each slot is returned exactly once. -/
theorem C40_each_slot_once {O S : Nat} (hO : 0 < O) (hS : 0 < S) (k : Nat) {l : List (Option Vec)} {a : CircAlloc}
    (h : takeN CircAlloc.next (k + O * S) (CircAlloc.create O S) = .ok (l, a)) {o s : Nat} (ho : o < O) (hs : s < S) :
    ∃! i, i < O * S ∧ l[k + i]? = some (some (Spec.slot O S o s)) := by
  obtain ⟨a', h'⟩ := C40_nth_call hO hS (k + O * S)
  rw [h] at h'
  injection h' with h'
  injection h' with h' _
  subst h'
  have hr : s + S * o < S * O := by
    have : S * (o + 1) ≤ S * O := Nat.mul_le_mul_left S (by omega)
    rw [Nat.mul_add] at this
    omega
  have key : ∀ i, i < O * S → (((List.range (k + O * S)).map (fun i => some (Spec.slot O S ((i / S) % O) (i % S))))[k + i]? =
      some (some (Spec.slot O S o s)) ↔ (k + i) % (S * O) = s + S * o) := by
    intro i hi
    rw [List.getElem?_map, List.getElem?_range (by omega), ← row_col_mod _ _ _ ho hs]
    simp only [Option.map_some, Option.some.injEq]
    constructor
    · intro h; exact slot_inj hO hS h
    · rintro ⟨h1, h2⟩; rw [h1, h2]
  obtain ⟨i, ⟨h1, h2⟩, h3⟩ := residue_once k (S * O) (s + S * o) hr
  rw [Nat.mul_comm S O] at h1
  refine ⟨i, ⟨h1, (key i h1).mpr h2⟩, ?_⟩
  rintro j ⟨hj, hj'⟩
  exact h3 j ⟨by rw [Nat.mul_comm S O]; exact hj, (key j hj).mp hj'⟩

/-- C40: the allocator never faults with at least one orbit and one satellite; without satellites it does. -/
theorem C40_no_satellites (O : Nat) : (CircAlloc.create O 0).next = .fail .divByZero := by
  simp [CircAlloc.next, CircAlloc.create]

example : ∃ a, takeN CircAlloc.next 5 (CircAlloc.create 2 2) =
    .ok ([some (Spec.slot 2 2 0 0), some (Spec.slot 2 2 0 1), some (Spec.slot 2 2 1 0), some (Spec.slot 2 2 1 1),
      some (Spec.slot 2 2 0 0)], a) := by
  obtain ⟨a, h⟩ := C40_nth_call (O := 2) (S := 2) (by omega) (by omega) 5
  exact ⟨a, h⟩

/-! ## C41 -/

/-- The point of the sphere with the given angles: `i / L` of the way from pole to pole, `j / M` of the turn. -/
noncomputable def Spec.gridPoint (L M i j : Nat) : Vec :=
  ⟨6371000 * sin (Real.pi * i / L) * cos (2 * Real.pi * j / M), 6371000 * sin (Real.pi * i / L) * sin (2 * Real.pi * j / M),
   6371000 * cos (Real.pi * i / L)⟩

theorem gridPoint_eq (L M i j : Nat) : gridPoint L M i j = Spec.gridPoint L M i j := by
  unfold gridPoint Spec.gridPoint gndRad
  have e1 : (i : ℝ) * (Real.pi / L) = Real.pi * i / L := by ring
  have e2 : (j : ℝ) * (2 * Real.pi / M) = 2 * Real.pi * j / M := by ring
  rw [e1, e2]
  norm_num

/-- C41: every returned position is on the sphere of radius 6371 km, in every state of the allocator. -/
theorem C41_on_surface {a a' : PolarAlloc} {v : Vec} (h : a.next = .ok (some v, a')) : v.len = 6371000 := by
  have hr : gndRad = 6371000 := by unfold gndRad; norm_num
  rw [← hr]
  simp only [PolarAlloc.next] at h
  have key : (if a.latNum = 0 ∨ a.lonNum = 0 then none
    else some (⟨gndRad * sin (a.lat * (Real.pi / a.latNum)) * cos (a.lon * (2 * Real.pi / a.lonNum)),
      gndRad * sin (a.lat * (Real.pi / a.latNum)) * sin (a.lon * (2 * Real.pi / a.lonNum)),
      gndRad * cos (a.lat * (Real.pi / a.latNum))⟩ : Vec)) = some v → v.len = gndRad := by
    intro h
    split at h
    · cases h
    · injection h with h
      rw [← h]
      exact len_spherical _ _
  split at h
  · split at h
    · cases h
    · injection h with h; injection h with h _; exact key h
  · injection h with h; injection h with h _; exact key h

/-- What holds of C41: row and column of call `n`.  Missing: `LatNum = 2^32 - 1`, for which it is false. -/
theorem C41_row_column_partial {L M : Nat} (hL : 0 < L) (hM : 0 < M) (hL' : L + 1 < 2 ^ 32) (hM' : M < 2 ^ 32) (n : Nat) :
    ∃ a, takeN PolarAlloc.next n (PolarAlloc.create L M) =
      .ok ((List.range n).map (fun i => some (Spec.gridPoint L M (i % (L + 1)) ((i / (L + 1)) % M))), a) := by
  refine ⟨polarAt L M n, ?_⟩
  have h0 : PolarAlloc.create L M = polarAt L M 0 := by simp [PolarAlloc.create, polarAt]
  rw [h0, takeN_closed (polarAt L M) (fun i => some (Spec.gridPoint L M (i % (L + 1)) ((i / (L + 1)) % M))) n 0]
  · rw [List.range_eq_range', Nat.zero_add]
  · intro i _
    rw [Nat.zero_add, polar_next hL hM hL' hM', gridPoint_eq]

/-- C41 is false at `LatNum = 2^32 - 1`: the row counter wraps to 0 without the column advancing. -/
theorem C41_column_stuck {M : Nat} (hM : 0 < M) (n : Nat) :
    takeN PolarAlloc.next n (PolarAlloc.create (2 ^ 32 - 1) M) =
      .ok ((List.range n).map (fun i => some (Spec.gridPoint (2 ^ 32 - 1) M (i % 2 ^ 32) 0)), ⟨2 ^ 32 - 1, M, n % 2 ^ 32, 0⟩) := by
  have h0 : PolarAlloc.create (2 ^ 32 - 1) M = (fun n => ⟨2 ^ 32 - 1, M, n % 2 ^ 32, 0⟩ : Nat → PolarAlloc) 0 := by
    simp [PolarAlloc.create]
  rw [h0, takeN_closed (fun n => ⟨2 ^ 32 - 1, M, n % 2 ^ 32, 0⟩ : Nat → PolarAlloc)
    (fun i => some (Spec.gridPoint (2 ^ 32 - 1) M (i % 2 ^ 32) 0)) n 0]
  · rw [List.range_eq_range', Nat.zero_add]
  · intro i _
    rw [Nat.zero_add]
    simp only [PolarAlloc.next]
    have c1 : ¬ (2 ^ 32 - 1 = 0 ∨ M = 0) := by omega
    have c2 : ¬ ((i % 2 ^ 32 + 1) % 2 ^ 32 > 2 ^ 32 - 1) := by omega
    rw [if_neg c1, if_neg c2, ← gridPoint_eq, Nat.mod_add_mod]
    rfl

example : ∃ a, takeN PolarAlloc.next 4 (PolarAlloc.create 2 3) =
    .ok ([some (Spec.gridPoint 2 3 0 0), some (Spec.gridPoint 2 3 1 0), some (Spec.gridPoint 2 3 2 0),
      some (Spec.gridPoint 2 3 0 1)], a) := by
  obtain ⟨a, h⟩ := C41_row_column_partial (L := 2) (M := 3) (by omega) (by omega) (by omega) (by omega) 4
  exact ⟨a, h⟩

/-! ## C42 -/

/-- The positions of a grid without wrap-around of the product. -/
theorem gridInstall_eq {L M : Nat} (hL : 0 < L) (hM : 0 < M) (hL' : L + 1 < 2 ^ 32) (hM' : M < 2 ^ 32) (hn : L * M < 2 ^ 32) :
    gridInstall L M = .ok ((List.range (L * M)).map (fun i => some (Spec.gridPoint L M (i % (L + 1)) ((i / (L + 1)) % M)))) := by
  unfold gridInstall
  rw [Nat.mul_comm M L, Nat.mod_eq_of_lt hn]
  obtain ⟨a, h⟩ := C41_row_column_partial hL hM hL' hM' (L * M)
  rw [h]
  rfl

theorem row_angle {L i : Nat} (hi : i ≤ L) (hL : 0 < L) : 0 ≤ Real.pi * i / L ∧ Real.pi * i / L ≤ Real.pi := by
  have hpi := Real.pi_pos
  have h1 : (0 : ℝ) < L := by exact_mod_cast hL
  have h2 : (i : ℝ) ≤ L := by exact_mod_cast hi
  constructor
  · positivity
  · rw [div_le_iff₀ h1]; nlinarith

theorem column_angle {M j : Nat} (hj : j < M) : 0 ≤ 2 * Real.pi * j / M ∧ 2 * Real.pi * j / M < 2 * Real.pi := by
  have hpi := Real.pi_pos
  have h1 : (0 : ℝ) < M := by exact_mod_cast (by omega : 0 < M)
  have h2 : (j : ℝ) < M := by exact_mod_cast hj
  constructor
  · positivity
  · rw [div_lt_iff₀ h1]; nlinarith

/-- The row of a grid point can be read off its height. -/
theorem row_unique {L M i j i' j' : Nat} (hL : 0 < L) (hi : i ≤ L) (hi' : i' ≤ L)
    (h : Spec.gridPoint L M i j = Spec.gridPoint L M i' j') : i = i' := by
  injection h with _ _ h3
  have h4 : cos (Real.pi * i / L) = cos (Real.pi * i' / L) := by linarith
  have hL' : (0 : ℝ) < L := by exact_mod_cast hL
  have h5 := Real.injOn_cos (row_angle hi hL) (row_angle hi' hL) h4
  rw [div_left_inj' hL'.ne', mul_right_inj' Real.pi_ne_zero] at h5
  exact_mod_cast h5

/-- The node lies on the meridian `j / M` of the turn, and on no other. -/
def Spec.OnMeridian (M j : Nat) (v : Vec) : Prop :=
  ∃ r : ℝ, 0 < r ∧ v.x = r * cos (2 * Real.pi * j / M) ∧ v.y = r * sin (2 * Real.pi * j / M)

theorem sin_row_pos {L i : Nat} (h0 : 0 < i) (h1 : i < L) : 0 < sin (Real.pi * i / L) := by
  have hpi := Real.pi_pos
  have hL : (0 : ℝ) < L := by exact_mod_cast (by omega : 0 < L)
  have h2 : (i : ℝ) < L := by exact_mod_cast h1
  have h3 : (0 : ℝ) < i := by exact_mod_cast h0
  apply sin_pos_of_pos_of_lt_pi
  · positivity
  · rw [div_lt_iff₀ hL]; nlinarith

theorem meridian_iff {L M i j j' : Nat} (hL : 0 < L) (hi : i ≤ L) (hj : j < M) (hj' : j' < M) :
    Spec.OnMeridian M j' (Spec.gridPoint L M i j) ↔ (0 < i ∧ i < L ∧ j = j') := by
  have hM : (0 : ℝ) < M := by exact_mod_cast (by omega : 0 < M)
  constructor
  · rintro ⟨r, hr, hx, hy⟩
    simp only [Spec.gridPoint] at hx hy
    have hs0 : 0 ≤ sin (Real.pi * i / L) := sin_nonneg_of_nonneg_of_le_pi (row_angle hi hL).1 (row_angle hi hL).2
    set c := 2 * Real.pi * j / M
    set c' := 2 * Real.pi * j' / M
    set s := sin (Real.pi * i / L)
    have h1 := sin_sq_add_cos_sq c
    have h2 := sin_sq_add_cos_sq c'
    have hrs : r ^ 2 = (6371000 * s) ^ 2 := by
      have : (6371000 * s * cos c) ^ 2 + (6371000 * s * sin c) ^ 2 = (r * cos c') ^ 2 + (r * sin c') ^ 2 := by rw [hx, hy]
      linear_combination (-this) + (6371000 * s) ^ 2 * h1 - r ^ 2 * h2
    have hre : r = 6371000 * s := by
      rcases sq_eq_sq_iff_eq_or_eq_neg.mp hrs with h | h
      · exact h
      · nlinarith
    have hs : s ≠ 0 := by intro h; rw [h] at hre; linarith
    have hi0 : i ≠ 0 := by
      intro h
      apply hs
      simp only [s, h]
      simp
    have hiL : i ≠ L := by
      intro h
      apply hs
      simp only [s, h]
      rw [mul_div_cancel_right₀ _ (by exact_mod_cast (by omega : L ≠ 0))]
      exact sin_pi
    rw [← hre] at hx hy
    have hcos : cos c = cos c' := mul_left_cancel₀ hr.ne' hx
    have hsin : sin c = sin c' := mul_left_cancel₀ hr.ne' hy
    have := angle_unique (column_angle hj) (column_angle hj') hcos hsin
    rw [div_left_inj' hM.ne', mul_right_inj' (by have := Real.pi_pos; positivity)] at this
    exact ⟨by omega, by omega, by exact_mod_cast this⟩
  · rintro ⟨h0, h1, rfl⟩
    exact ⟨6371000 * sin (Real.pi * i / L), mul_pos (by norm_num) (sin_row_pos h0 h1), rfl, rfl⟩

/-- The exact extent of C42 (without wrap-around of the product): the nodes are at distinct positions iff there is only
one longitude or just two nodes, and every longitude has a node iff there are more latitudes than longitudes. -/
theorem C42_exact {L M : Nat} (hL : 0 < L) (hM : 0 < M) (hL' : L + 1 < 2 ^ 32) (hM' : M < 2 ^ 32) (hn : L * M < 2 ^ 32)
    {ps : List (Option Vec)} (h : gridInstall L M = .ok ps) :
    ps.length = L * M ∧ (ps.Nodup ↔ L * M ≤ L + 1) ∧
    ((∀ j, j < M → ∃ v, some v ∈ ps ∧ Spec.OnMeridian M j v) ↔ M < L) := by
  rw [gridInstall_eq hL hM hL' hM' hn] at h
  injection h with h
  subst h
  have hcol : ∀ n, n < L * M → n / (L + 1) < M := fun n hn' => by
    rw [Nat.div_lt_iff_lt_mul (by omega), Nat.mul_add, Nat.mul_comm M L]; omega
  have hrow : ∀ n, n % (L + 1) ≤ L := fun n => by have := Nat.mod_lt n (show L + 1 > 0 by omega); omega
  refine ⟨by simp, ?_, ?_⟩
  · constructor
    · intro hnd
      by_contra hgt
      push Not at hgt
      have h1 := List.nodup_iff_injective_getElem.mp hnd
      have h2 : (⟨0, by simp; omega⟩ : Fin ((List.range (L * M)).map
          (fun i => some (Spec.gridPoint L M (i % (L + 1)) ((i / (L + 1)) % M)))).length) = ⟨L + 1, by simp; omega⟩ := by
        apply h1
        simp only [List.getElem_map, List.getElem_range, Nat.zero_mod, Nat.mod_self, Option.some.injEq]
        simp [Spec.gridPoint]
      have := congrArg Fin.val h2
      simp at this
    · intro hle
      refine List.Nodup.map_on ?_ List.nodup_range
      intro x hx y hy hxy
      rw [List.mem_range] at hx hy
      injection hxy with hxy
      have := row_unique hL (hrow x) (hrow y) hxy
      rw [Nat.mod_eq_of_lt (by omega), Nat.mod_eq_of_lt (by omega)] at this
      exact this
  · constructor
    · intro hall
      obtain ⟨v, hv, hm⟩ := hall (M - 1) (by omega)
      rw [List.mem_map] at hv
      obtain ⟨n, hn', hv⟩ := hv
      rw [List.mem_range] at hn'
      injection hv with hv
      rw [← hv, Nat.mod_eq_of_lt (hcol n hn'), meridian_iff hL (hrow n) (hcol n hn') (by omega)] at hm
      obtain ⟨h1, _, h3⟩ := hm
      have h4 := Nat.div_add_mod n (L + 1)
      rw [h3] at h4
      obtain ⟨m, rfl⟩ : ∃ m, M = m + 1 := ⟨M - 1, by omega⟩
      simp only [Nat.add_sub_cancel] at h4
      rw [Nat.mul_add] at hn'
      rw [Nat.add_mul] at h4
      omega
    · intro hlt j hj
      refine ⟨Spec.gridPoint L M 1 j, ?_, ?_⟩
      · rw [List.mem_map]
        refine ⟨j * (L + 1) + 1, ?_, ?_⟩
        · rw [List.mem_range]
          obtain ⟨m, rfl⟩ : ∃ m, M = m + 1 := ⟨M - 1, by omega⟩
          have : j * (L + 1) ≤ m * (L + 1) := Nat.mul_le_mul_right _ (by omega)
          rw [Nat.mul_add L, Nat.mul_comm L m]
          rw [Nat.mul_add m] at this
          omega
        · have e1 : (j * (L + 1) + 1) % (L + 1) = 1 := by
            rw [Nat.add_comm, Nat.add_mul_mod_self_right, Nat.mod_eq_of_lt (by omega)]
          have e2 : (j * (L + 1) + 1) / (L + 1) = j := by
            rw [Nat.add_comm, Nat.add_mul_div_right _ _ (by omega), Nat.div_eq_of_lt (by omega), Nat.zero_add]
          rw [e1, e2, Nat.mod_eq_of_lt hj]
      · rw [meridian_iff hL (by omega) hj hj]
        exact ⟨by omega, by omega, rfl⟩

/-- C42 is false: on a 2 x 2 grid two nodes are at the north pole and no node is at the second longitude. -/
theorem C42_poles_repeat :
    ¬ ∀ (L M : Nat) (ps : List (Option Vec)), 0 < L → 0 < M → gridInstall L M = .ok ps →
      ps.Nodup ∧ ∀ j, j < M → ∃ v, some v ∈ ps ∧ Spec.OnMeridian M j v := by
  intro hall
  have h := gridInstall_eq (L := 2) (M := 2) (by omega) (by omega) (by omega) (by omega) (by omega)
  have := hall 2 2 _ (by omega) (by omega) h
  have := (C42_exact (by omega) (by omega) (by omega) (by omega) (by omega) h).2.1.mp this.1
  omega

/-- The number of nodes is the product in 32 bits: a 65536 x 65536 grid has no node at all. -/
theorem C42_product_wraps : gridInstall 65536 65536 = .ok [] := by
  simp [gridInstall, takeN]

/-- What holds of C42: it is true for a single longitude and at least two latitudes.  Missing: all other grids,
for which it is false. -/
theorem C42_single_longitude_partial {L : Nat} (hL : 2 ≤ L) (hL' : L + 1 < 2 ^ 32) :
    ∃ ps, gridInstall L 1 = .ok ps ∧ ps.length = L ∧ ps.Nodup ∧ ∀ j, j < 1 → ∃ v, some v ∈ ps ∧ Spec.OnMeridian 1 j v := by
  have h := gridInstall_eq (L := L) (M := 1) (by omega) (by omega) hL' (by omega) (by omega)
  have := C42_exact (by omega) (by omega) hL' (by omega) (by omega) h
  exact ⟨_, h, by rw [this.1]; omega, this.2.1.mpr (by omega), this.2.2.mpr (by omega)⟩

/-! ## C43 -/

/-- The point of the Earth's surface at a latitude and longitude in degrees. -/
noncomputable def Spec.location (latitude longitude : ℝ) : Vec :=
  ⟨6371000 * cos (latitude * (Real.pi / 180)) * cos (longitude * (Real.pi / 180)),
   6371000 * cos (latitude * (Real.pi / 180)) * sin (longitude * (Real.pi / 180)),
   6371000 * sin (latitude * (Real.pi / 180))⟩

/-- The exact law: latitude `x` is placed at latitude `90 - 2 x`. -/
theorem C43_law (l : LatLong) : earthPosition l = Spec.location (90 - 2 * l.latitude) l.longitude := by
  have hr : gndRad = 6371000 := by unfold gndRad; norm_num
  have e : (90 - 2 * l.latitude) * (Real.pi / 180) = Real.pi / 2 - l.latitude * (Real.pi / 90) := by ring
  unfold earthPosition Spec.location
  rw [e, cos_pi_div_two_sub, sin_pi_div_two_sub, hr]

/-- `Install` of two locations places one node for each, in this order. -/
theorem C43_pair_law (l1 l2 : LatLong) : gndInstallPair l1 l2 =
    [Spec.location (90 - 2 * l1.latitude) l1.longitude, Spec.location (90 - 2 * l2.latitude) l2.longitude] := by
  rw [← C43_law, ← C43_law]
  rfl

/-- The part of C43 that holds for all locations: the position is on the Earth's surface.  Missing: the equator and
injectivity, which are false. -/
theorem C43_on_surface_partial (l : LatLong) : (earthPosition l).len = 6371000 := by
  have hr : gndRad = 6371000 := by unfold gndRad; norm_num
  rw [← hr]
  exact len_spherical _ _

/-- C43 is false: every location on the equator is placed at the north pole. -/
theorem C43_equator_at_pole (lon : ℝ) : earthPosition ⟨0, lon⟩ = ⟨0, 0, 6371000⟩ := by
  rw [C43_law]
  simp only [Spec.location, mul_zero, sub_zero]
  have e : (90 : ℝ) * (Real.pi / 180) = Real.pi / 2 := by ring
  rw [e, cos_pi_div_two, sin_pi_div_two]
  norm_num

/-- C43 is false: different locations are placed at the same point; for example both poles, and all pairs at
opposite latitudes and longitudes. -/
theorem C43_locations_collide (lat lon : ℝ) :
    earthPosition ⟨-lat, lon⟩ = earthPosition ⟨lat, lon + 180⟩ ∧ earthPosition ⟨90, 0⟩ = earthPosition ⟨-90, 0⟩ := by
  have hr : gndRad = 6371000 := by unfold gndRad; norm_num
  have e1 : (lon + 180) * (Real.pi / 180) = lon * (Real.pi / 180) + Real.pi := by ring
  constructor
  · simp only [earthPosition, e1, neg_mul, sin_neg, cos_neg, cos_add_pi, sin_add_pi]
    ext <;> simp only <;> ring
  · have e2 : (90 : ℝ) * (Real.pi / 90) = Real.pi := by ring
    simp only [earthPosition, neg_mul, sin_neg, cos_neg, e2, sin_pi]
    simp

/-- The claim as stated is false. -/
theorem C43_false :
    ¬ ((∀ lon : ℝ, (earthPosition ⟨0, lon⟩).z = 0) ∨
       ∀ l l' : LatLong, -90 ≤ l.latitude → l.latitude ≤ 90 → -90 ≤ l'.latitude → l'.latitude ≤ 90 →
        -180 < l.longitude → l.longitude ≤ 180 → -180 < l'.longitude → l'.longitude ≤ 180 →
        Spec.location l.latitude l.longitude ≠ Spec.location l'.latitude l'.longitude →
        earthPosition l ≠ earthPosition l') := by
  rintro (h | h)
  · have := h 0
    rw [C43_equator_at_pole] at this
    norm_num at this
  · refine h ⟨90, 0⟩ ⟨-90, 0⟩ (by norm_num) (by norm_num) (by norm_num) (by norm_num) (by norm_num) (by norm_num) (by norm_num)
      (by norm_num) ?_ (C43_locations_collide 0 0).2
    intro h'
    injection h' with _ _ h3
    have e : (90 : ℝ) * (Real.pi / 180) = Real.pi / 2 := by ring
    simp only [neg_mul, sin_neg, e, sin_pi_div_two] at h3
    norm_num at h3

/-- Within the northern hemisphere without its rim, different locations are placed at different points.  Missing: the
other latitudes, for which it is false. -/
theorem C43_injective_north_partial {l l' : LatLong} (h1 : 0 < l.latitude) (h2 : l.latitude < 90) (h1' : 0 < l'.latitude)
    (h2' : l'.latitude < 90) (h3 : -180 < l.longitude) (h4 : l.longitude ≤ 180) (h3' : -180 < l'.longitude)
    (h4' : l'.longitude ≤ 180) (h : earthPosition l = earthPosition l') : l = l' := by
  have hpi := Real.pi_pos
  have hr := gndRad_pos
  have hlat : ∀ x : ℝ, 0 < x → x < 90 → 0 < x * (Real.pi / 90) ∧ x * (Real.pi / 90) < Real.pi := by
    intro x hx hx'
    constructor
    · positivity
    · have : x * (Real.pi / 90) < 90 * (Real.pi / 90) := mul_lt_mul_of_pos_right hx' (by positivity)
      linarith
  simp only [earthPosition] at h
  injection h with ex ey ez
  have a1 := hlat _ h1 h2
  have a2 := hlat _ h1' h2'
  have hz : cos (l.latitude * (Real.pi / 90)) = cos (l'.latitude * (Real.pi / 90)) := mul_left_cancel₀ hr.ne' ez
  have hla := Real.injOn_cos ⟨a1.1.le, a1.2.le⟩ ⟨a2.1.le, a2.2.le⟩ hz
  have hlat' : l.latitude = l'.latitude := mul_right_cancel₀ (by positivity) hla
  have hs := sin_pos_of_pos_of_lt_pi a2.1 a2.2
  rw [hlat'] at ex ey
  have hne : gndRad * sin (l'.latitude * (Real.pi / 90)) ≠ 0 := by positivity
  have hcos := mul_left_cancel₀ hne ex
  have hsin := mul_left_cancel₀ hne ey
  have hd : cos (l.longitude * (Real.pi / 180) - l'.longitude * (Real.pi / 180)) = 1 := by
    rw [cos_sub, hcos, hsin]
    have := sin_sq_add_cos_sq (l'.longitude * (Real.pi / 180))
    nlinarith
  have hpi' : 0 < Real.pi / 180 := by positivity
  have hz := (Real.cos_eq_one_iff_of_lt_of_lt (by nlinarith) (by nlinarith)).mp hd
  have hlon : l.longitude = l'.longitude := mul_right_cancel₀ hpi'.ne' (sub_eq_zero.mp hz)
  cases l; cases l'
  simp only at hlat' hlon
  rw [hlat', hlon]

example : earthPosition ⟨45, 90⟩ ≠ earthPosition ⟨45, -90⟩ := by
  intro h
  have := C43_injective_north_partial (by norm_num) (by norm_num) (by norm_num) (by norm_num) (by norm_num) (by norm_num)
    (by norm_num) (by norm_num) h
  injection this with _ h
  norm_num at h

/-! ## C53 -/

theorem orbitInstall_eq {junk : ℝ} {now : Time} {o : OrbitRec} {s : Sat} (hp : 0 < o.planes) (hs : 0 < o.sats)
    (hn : o.sats * o.planes ≤ 2147483647) (hc : Sat.create junk now o.alt o.inc defaultPrecision = .ok s) :
    orbitInstall junk now o = .ok ((List.range (o.sats * o.planes)).map
      (fun i => s.setPosition (Spec.slot o.planes o.sats ((i / o.sats) % o.planes) (i % o.sats)))) := by
  unfold orbitInstall
  rw [if_neg (by omega)]
  have h0 : CircAlloc.create o.planes o.sats = circAt o.planes o.sats 0 := by simp [CircAlloc.create, circAt]
  rw [h0, takeN_closed (circAt o.planes o.sats)
    (fun i => s.setPosition (Spec.slot o.planes o.sats ((i / o.sats) % o.planes) (i % o.sats))) (o.sats * o.planes) 0]
  · rw [List.range_eq_range']; rfl
  · intro i _
    rw [Nat.zero_add]
    simp only [placeSat, hc, Outcome.ok_bind, circ_next hp hs, Option.getD_some, Spec.slot, mul_div_assoc]

/-- C53: installing an orbit of `P` planes with `S` satellites creates `P * S` nodes with the altitude and inclination
of the record; each of the `P * S` slots is taken by exactly one of them, and each is at the exact position of its
slot at the time of installation. -/
theorem C53_one_satellite_per_slot {junk : ℝ} {now : Time} {o : OrbitRec} (hp : 0 < o.planes) (hs : 0 < o.sats)
    (hn : o.planes * o.sats ≤ 2147483647) (hi : o.inc ≠ 0) :
    ∃ l, orbitInstall junk now o = .ok l ∧ l.length = o.planes * o.sats ∧
      (∀ s ∈ l, s.getAltitude = o.alt ∧ s.getInclination = o.inc ∧ s.now = now ∧ s.getPosition = s.orbit.position now) ∧
      (∀ p k, p < o.planes → k < o.sats → ∃! i : Nat, ∃ s : Sat, l[i]? = some s ∧
        s.orbit.lon = 2 * Real.pi * p / o.planes ∧ s.orbit.off = 2 * Real.pi * k / o.sats) := by
  obtain ⟨s0, hc⟩ : ∃ s0, Sat.create junk now o.alt o.inc defaultPrecision = .ok s0 := ⟨_, create_eq _ _ _ _ _ hi⟩
  rw [Nat.mul_comm] at hn
  refine ⟨_, orbitInstall_eq hp hs hn hc, by simp [Nat.mul_comm], ?_, ?_⟩
  · intro s hs'
    rw [List.mem_map] at hs'
    obtain ⟨i, _, rfl⟩ := hs'
    obtain ⟨c1, c2, _, _, c5, _⟩ := C37_construction hc
    refine ⟨c1, c2, c5, ?_⟩
    unfold Sat.getPosition
    rw [← c5]
    split <;> rfl
  · intro p k hp' hk'
    have hr : k + o.sats * p < o.sats * o.planes := by
      have : o.sats * (p + 1) ≤ o.sats * o.planes := Nat.mul_le_mul_left _ (by omega)
      rw [Nat.mul_add] at this
      omega
    have slot : ∀ i : Nat, (∃ s : Sat, ((List.range (o.sats * o.planes)).map (fun i => s0.setPosition
        (Spec.slot o.planes o.sats ((i / o.sats) % o.planes) (i % o.sats))))[i]? = some s ∧
        s.orbit.lon = 2 * Real.pi * p / o.planes ∧ s.orbit.off = 2 * Real.pi * k / o.sats) ↔
        i < o.sats * o.planes ∧ i % (o.sats * o.planes) = k + o.sats * p := by
      intro i
      rw [← row_col_mod _ _ _ hp' hk']
      constructor
      · rintro ⟨s, h1, h2, h3⟩
        rw [List.getElem?_map] at h1
        obtain ⟨x, hx, hxs⟩ := Option.map_eq_some_iff.mp h1
        obtain ⟨hlt, hx⟩ := List.getElem?_eq_some_iff.mp hx
        rw [List.getElem_range] at hx
        rw [List.length_range] at hlt
        subst hx
        refine ⟨hlt, ?_⟩
        rw [← hxs] at h2 h3
        apply slot_inj hp hs
        simp only [Spec.slot]
        simp only [Sat.setPosition, Sat.update, Spec.slot] at h2 h3
        rw [h2, h3]
      · rintro ⟨hlt, h1, h2⟩
        refine ⟨_, by rw [List.getElem?_map, List.getElem?_range hlt]; rfl, ?_, ?_⟩
        · simp only [Sat.setPosition, Sat.update, Spec.slot, h1]
        · simp only [Sat.setPosition, Sat.update, Spec.slot, h2]
    obtain ⟨i, h1, h2⟩ := residue_once 0 (o.sats * o.planes) (k + o.sats * p) hr
    simp only [Nat.zero_add] at h1 h2
    refine ⟨i, (slot i).mpr h1, ?_⟩
    intro j hj
    exact h2 j ((slot j).mp hj)

/-- C53: for a list of orbits the nodes are the concatenation of those of the orbits. -/
theorem C53_orbit_list {junk : ℝ} {now : Time} {os : List OrbitRec}
    (h : ∀ o ∈ os, 0 < o.planes ∧ 0 < o.sats ∧ o.planes * o.sats ≤ 2147483647 ∧ o.inc ≠ 0) :
    ∃ ls : List (List Sat), List.Forall₂ (fun o l => orbitInstall junk now o = .ok l) os ls ∧
      orbitsInstall junk now os = .ok ls.flatten ∧
      ls.flatten.length = (os.map (fun o => o.planes * o.sats)).sum := by
  induction os with
  | nil => exact ⟨[], .nil, rfl, rfl⟩
  | cons o os ih =>
    obtain ⟨ls, h1, h2, h3⟩ := ih (fun o ho => h o (by simp [ho]))
    obtain ⟨a, b, c, d⟩ := h o (by simp)
    obtain ⟨l, hl, hlen, _⟩ := C53_one_satellite_per_slot (junk := junk) (now := now) a b c d
    refine ⟨l :: ls, .cons hl h1, ?_, ?_⟩
    · simp only [orbitsInstall, hl, h2, Outcome.ok_bind, List.flatten_cons]
    · simp only [List.flatten_cons, List.length_append, hlen, h3, List.map_cons, List.sum_cons]

/-- The conditions of C53 are needed: an empty orbit has no node, an inclination of 0 trips an assertion and a product
that does not fit `int` is undefined behaviour. -/
theorem C53_conditions (junk : ℝ) (now : Time) (o : OrbitRec) :
    (o.planes = 0 ∨ o.sats = 0 → orbitInstall junk now o = .ok []) ∧
    (0 < o.planes → 0 < o.sats → o.planes * o.sats ≤ 2147483647 → o.inc = 0 →
      orbitInstall junk now o = .fail .zeroInclination) ∧
    (2147483647 < o.planes * o.sats → orbitInstall junk now o = .fail .signedOverflow) := by
  refine ⟨?_, ?_, ?_⟩
  · intro h
    have : o.sats * o.planes = 0 := by rcases h with h | h <;> rw [h] <;> omega
    simp [orbitInstall, this, takeN]
  · intro h1 h2 h3 h4
    unfold orbitInstall
    rw [Nat.mul_comm] at h3
    rw [if_neg (by omega)]
    obtain ⟨n, hn⟩ : ∃ n, o.sats * o.planes = n + 1 := ⟨o.sats * o.planes - 1, by have := Nat.mul_pos h2 h1; omega⟩
    rw [hn]
    simp only [takeN, placeSat, Sat.create, Sat.setInclination, if_pos h4, Outcome.fail_bind]
  · intro h
    unfold orbitInstall
    rw [Nat.mul_comm] at h
    rw [if_pos h]

/-- A constellation of 72 planes with 22 satellites meets the conditions; 65535 planes of 65535 satellites do not. -/
example : ∃ l, orbitInstall 0 0 ⟨550, 53, 72, 22⟩ = .ok l ∧ l.length = 1584 := by
  obtain ⟨l, h1, h2, _⟩ := C53_one_satellite_per_slot (junk := 0) (now := 0) (o := ⟨550, 53, 72, 22⟩) (by norm_num)
    (by norm_num) (by norm_num) (by norm_num)
  exact ⟨l, h1, h2⟩

example : orbitInstall 0 0 ⟨550, 53, 65535, 65535⟩ = .fail .signedOverflow :=
  (C53_conditions 0 0 _).2.2 (by norm_num)

end Verif
