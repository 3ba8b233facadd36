import Verif.Model.OrbitSched
import Verif.Lemmas.Orbit
/-! Invariants of the satellite state machine. -/

namespace Verif

theorem sat_exec_induct {P : Sat → Prop} (hstep : ∀ s s' op, P s → s.step op = .ok s' → P s')
    {s s' : Sat} {ops : List SatOp} (h0 : P s) (h : s.exec ops = .ok s') : P s' := by
  induction ops generalizing s with
  | nil => injection h with h; exact h ▸ h0
  | cons op ops ih =>
    simp only [Sat.exec] at h
    rw [Outcome.bind_eq_ok] at h
    obtain ⟨s1, h1, h2⟩ := h
    exact ih (hstep _ _ _ h0 h1) h2

theorem sat_exec_append {s : Sat} {o1 o2 : List SatOp} :
    s.exec (o1 ++ o2) = (s.exec o1 >>= fun s' => s'.exec o2) := by
  induction o1 generalizing s with
  | nil => rfl
  | cons op o1 ih =>
    simp only [List.cons_append, Sat.exec]
    cases h : s.step op with
    | ok s1 => simp only [Outcome.ok_bind]; exact ih
    | fail f => rfl

theorem mem_insertTime {t u : Time} {l : List Time} : u ∈ insertTime t l ↔ u = t ∨ u ∈ l := by
  induction l with
  | nil => simp [insertTime]
  | cons a l ih =>
    simp only [insertTime]
    split
    · simp only [List.mem_cons, ih]; tauto
    · simp

theorem sorted_insertTime {t : Time} {l : List Time} (h : l.Pairwise (· ≤ ·)) : (insertTime t l).Pairwise (· ≤ ·) := by
  induction l with
  | nil => simp [insertTime]
  | cons a l ih =>
    rw [List.pairwise_cons] at h
    simp only [insertTime]
    split
    · rename_i hat
      rw [List.pairwise_cons]
      refine ⟨fun x hx => ?_, ih h.2⟩
      rcases mem_insertTime.mp hx with rfl | hx
      · exact hat
      · exact h.1 x hx
    · rename_i hat
      have hta : t ≤ a := by omega
      rw [List.pairwise_cons]
      refine ⟨fun x hx => ?_, List.pairwise_cons.mpr h⟩
      rcases List.mem_cons.mp hx with rfl | hx
      · exact hta
      · exact Nat.le_trans hta (h.1 x hx)

theorem insertTime_last {t : Time} {l : List Time} (h : ∀ u ∈ l, u ≤ t) : insertTime t l = l ++ [t] := by
  induction l with
  | nil => rfl
  | cons a l ih =>
    simp only [insertTime]
    rw [if_pos (h a (by simp)), ih (fun u hu => h u (by simp [hu]))]
    rfl

theorem length_insertTime (t : Time) (l : List Time) : (insertTime t l).length = l.length + 1 := by
  induction l with
  | nil => rfl
  | cons a l ih =>
    simp only [insertTime]
    split <;> simp [ih]

/-- What holds in every reachable state. -/
structure SatInv (s : Sat) : Prop where
  /-- the cached position was exact for the current parameters at some time -/
  fresh : ∃ u, u ≤ s.now ∧ s.pos = s.orbit.position u
  sorted : s.pending.Pairwise (· ≤ ·)
  future : ∀ t ∈ s.pending, s.now ≤ t

theorem satInv_update {s : Sat} (h1 : s.pending.Pairwise (· ≤ ·)) (h2 : ∀ t ∈ s.pending, s.now ≤ t) : SatInv s.update := by
  refine ⟨⟨s.now, Nat.le_refl _, rfl⟩, ?_, ?_⟩
  · simp only [Sat.update]
    split
    · exact sorted_insertTime h1
    · exact h1
  · simp only [Sat.update]
    intro t ht
    split at ht
    · rcases mem_insertTime.mp ht with rfl | ht
      · exact Nat.le_add_right _ _
      · exact h2 t ht
    · exact h2 t ht

theorem satInv_step {s s' : Sat} {op : SatOp} (hi : SatInv s) (h : s.step op = .ok s') : SatInv s' := by
  cases op with
  | setPosition v => injection h with h; subst h; exact satInv_update hi.sorted hi.future
  | setAltitude v => injection h with h; subst h; exact satInv_update hi.sorted hi.future
  | setInclination i =>
    simp only [Sat.step, Sat.setInclination] at h
    split at h
    · cases h
    · injection h with h; subst h; exact satInv_update hi.sorted hi.future
  | setPrecision p => injection h with h; subst h; exact ⟨hi.fresh, hi.sorted, hi.future⟩
  | run =>
    simp only [Sat.step] at h
    split at h
    · injection h with h; subst h; exact hi
    · rename_i t ts hp
      injection h with h; subst h
      have hs := hi.sorted
      rw [hp, List.pairwise_cons] at hs
      exact satInv_update hs.2 hs.1
  | wait dt =>
    have adv : (∀ t ∈ s.pending, s.now + dt ≤ t) → SatInv { s with now := s.now + dt } := by
      intro hall
      obtain ⟨u, hu, hp⟩ := hi.fresh
      exact ⟨⟨u, Nat.le_trans hu (Nat.le_add_right _ _), hp⟩, hi.sorted, hall⟩
    simp only [Sat.step] at h
    split at h
    · rename_i hp
      injection h with h; subst h
      exact adv (by rw [hp]; intro t ht; cases ht)
    · rename_i t ts hp
      split at h
      · rename_i hle
        injection h with h; subst h
        apply adv
        have hs := hi.sorted
        rw [hp, List.pairwise_cons] at hs
        rw [hp]
        intro x hx
        rcases List.mem_cons.mp hx with rfl | hx
        · exact hle
        · exact Nat.le_trans hle (hs.1 x hx)
      · injection h with h; subst h; exact hi

theorem create_eq (junk : ℝ) (now : Time) (a i : ℝ) (p : Int) (hi : i ≠ 0) :
    Sat.create junk now a i p =
      .ok ⟨⟨earthRadKm + a, i / 180 * Real.pi, 0, 0⟩,
        Orbit.position ⟨earthRadKm + a, i / 180 * Real.pi, 0, 0⟩ now, p, now, [], [now, now]⟩ := by
  simp [Sat.create, Sat.setAltitude, Sat.setInclination, Sat.update, hi]

theorem satInv_create {junk : ℝ} {now : Time} {a i : ℝ} {p : Int} {s : Sat} (h : Sat.create junk now a i p = .ok s) :
    SatInv s := by
  by_cases hi : i = 0
  · rw [Sat.create, Sat.setInclination, if_pos hi] at h; cases h
  · rw [create_eq _ _ _ _ _ hi] at h
    injection h with h
    subst h
    exact ⟨⟨now, Nat.le_refl _, rfl⟩, List.Pairwise.nil, by intro t ht; cases ht⟩

theorem satInv_exec {s s' : Sat} {ops : List SatOp} (h0 : SatInv s) (h : s.exec ops = .ok s') : SatInv s' :=
  sat_exec_induct (P := SatInv) (fun _ _ _ hi hs => satInv_step hi hs) h0 h

/-- Every reported position is the exact position for the current parameters at some time not in the future. -/
theorem getPosition_exact {s : Sat} (hi : SatInv s) : ∃ u, u ≤ s.now ∧ s.getPosition = s.orbit.position u := by
  unfold Sat.getPosition
  split
  · exact ⟨s.now, Nat.le_refl _, rfl⟩
  · exact hi.fresh

end Verif
