import Verif.Spec.TrackText
import Verif.Lemmas.ParseDouble
import Verif.Props.IpTrace
import Verif.Props.Fleet
import Verif.Props.Example
/-!
# The file of the tracing program: C127
-/

namespace Verif
namespace TrackTextProofs
open Spec IpTraceProofs

/-- What is printed differs by at most half a unit of the sixth digit. -/
theorem printed_half {q : ℚ} {k : Int} (hk : |q| < 10 ^ (k + 1)) : |printed q - q| ≤ 10 ^ (k - 5) / 2 := by
  by_cases h : q = 0
  · subst h
    have hp := ten_zpow_pos (k - 5)
    simp only [printed, if_pos, sub_self, abs_zero]
    linarith
  · have hp := ten_zpow_pos (Int.log 10 |q| - 5)
    have hs : q = (if q < 0 then -1 else 1) * (|q| * 10 ^ (5 - Int.log 10 |q|) * 10 ^ (Int.log 10 |q| - 5)) := by
      rw [mul_assoc, ← zpow_add₀ (by norm_num), show 5 - Int.log 10 |q| + (Int.log 10 |q| - 5) = 0 by ring]
      split
      · rename_i hn; rw [abs_of_neg hn]; simp
      · rename_i hn; rw [abs_of_nonneg (not_lt.mp hn)]; simp
    have hn := roundEven_near (|q| * 10 ^ (5 - Int.log 10 |q|))
    have e : printed q - q = (if q < 0 then -1 else 1) *
        ((roundEven (|q| * 10 ^ (5 - Int.log 10 |q|)) - |q| * 10 ^ (5 - Int.log 10 |q|)) * 10 ^ (Int.log 10 |q| - 5)) := by
      rw [printed_scaled h]
      conv_lhs => rhs; rw [hs]
      ring
    have e1 : |(if q < 0 then -1 else 1 : ℚ)| = 1 := by split <;> norm_num
    rw [e, abs_mul, e1, one_mul, abs_mul, abs_of_pos hp]
    have h1 := mul_le_mul_of_nonneg_right hn hp.le
    have hlog : Int.log 10 |q| < k + 1 := by
      have := (Int.lt_zpow_iff_log_lt (b := 10) (x := k + 1) (by norm_num) (abs_pos.mpr h)).mp (by push_cast; exact hk)
      exact this
    have h2 : (10 : ℚ) ^ (Int.log 10 |q| - 5) ≤ 10 ^ (k - 5) := zpow_le_zpow_right₀ (by norm_num) (by omega)
    linarith

theorem isFloat_printed (q : ℚ) : IsFloat (showDouble q) (printed q) := by
  rw [← showDouble_printed]
  exact showDouble_spec (printed_six q)

theorem float_unique {t : List Char} {v w : ℚ} (h : IsFloat t v) (h' : IsFloat t w) : v = w := by
  have a := scanFloat_iff.mpr ⟨t, (List.append_nil t).symm, h, end_end.1 t⟩
  have b := scanFloat_iff.mpr ⟨t, (List.append_nil t).symm, h', end_end.1 t⟩
  rw [a] at b
  injection b with b _
  injection b

theorem digit_clean {c : Char} (h : IsDigit c) : c ≠ ':' ∧ c ≠ ',' := by
  refine ⟨?_, ?_⟩ <;> rintro rfl <;> revert h <;> simp [IsDigit]

/-- No colon and no comma in a decimal number. -/
theorem float_clean {t : List Char} {v : ℚ} (h : IsFloat t v) : ':' ∉ t ∧ ',' ∉ t := by
  obtain ⟨s, i, f, d, e, k, hi, hd, _, hf, hE, rfl, hv⟩ := h
  have sign : ∀ {s : List Char} {P : Prop}, Sign s P → ∀ c ∈ s, c ≠ ':' ∧ c ≠ ',' := by
    intro s P hs c hc
    rcases hs with ⟨rfl, _⟩ | ⟨rfl, _⟩ | ⟨rfl, _⟩
    · cases hc
    · rw [List.mem_singleton] at hc; subst hc; decide
    · rw [List.mem_singleton] at hc; subst hc; decide
  have key : ∀ c ∈ s ++ i ++ f ++ e, c ≠ ':' ∧ c ≠ ',' := by
    intro c hc
    simp only [List.mem_append] at hc
    rcases hc with ((hc | hc) | hc) | hc
    · rcases hv with ⟨hs, _⟩ | ⟨hs, _⟩ <;> exact sign hs c hc
    · exact digit_clean (hi c hc)
    · rcases hf with ⟨rfl, _⟩ | rfl
      · cases hc
      · rcases List.mem_cons.mp hc with rfl | hc
        · decide
        · exact digit_clean (hd c hc)
    · rcases hE with ⟨rfl, _⟩ | ⟨c0, s0, x, hc0, hx, _, rfl, hs0⟩
      · cases hc
      · rcases List.mem_cons.mp hc with rfl | hc
        · rcases hc0 with rfl | rfl <;> decide
        · rcases List.mem_append.mp hc with hc | hc
          · rcases hs0 with ⟨hs, _⟩ | ⟨hs, _⟩ <;> exact sign hs c hc
          · exact digit_clean (hx c hc)
  exact ⟨fun hm => (key _ hm).1 rfl, fun hm => (key _ hm).2 rfl⟩

theorem shows_text (now node : Nat) (c : Computed) : ShowsTrack (trackText now node c) now node (printed c.x) (printed c.y) (printed c.z) (printed c.speed) := by
  refine ⟨_, _, _, _, _, _, numeral_showNat now, numeral_showNat node, isFloat_printed c.x, isFloat_printed c.y, isFloat_printed c.z, isFloat_printed c.speed, ?_⟩
  have e1 : ".0ns:".toList = ".0ns".toList ++ [':'] := by decide
  have e2 : "+".toList = ['+'] := by decide
  have e3 : ":".toList = [':'] := by decide
  rw [e1, e2, e3]
  unfold trackText showTime
  simp only [List.append_assoc, List.cons_append, List.nil_append]

/-- From the computed number to what is read. -/
theorem near {q : ℚ} {x ε B : ℝ} {k : Int} (h : |(q : ℝ) - x| ≤ ε) (hx : |x| + ε < B) (hB : B = ((10 ^ (k + 1) : ℚ) : ℝ)) :
    |((printed q : ℚ) : ℝ) - x| ≤ ((10 ^ (k - 5) / 2 : ℚ) : ℝ) + ε := by
  have hq : |q| < 10 ^ (k + 1) := by
    have h1 : |(q : ℝ)| < ((10 ^ (k + 1) : ℚ) : ℝ) := by
      rw [← hB]
      have := abs_sub_abs_le_abs_sub (q : ℝ) x
      linarith
    exact_mod_cast h1
  have h2 := printed_half hq
  have h3 : |((printed q : ℚ) : ℝ) - q| ≤ ((10 ^ (k - 5) / 2 : ℚ) : ℝ) := by exact_mod_cast h2
  have h4 := abs_sub_le ((printed q : ℚ) : ℝ) q x
  linarith

end TrackTextProofs

open Real Spec IpTraceProofs TrackTextProofs

/-- **C127**: for orbits up to 3600 km the file of the tracing program is the heading and, in the order of C89, one line per sample and satellite, which tells the time and
the satellite exactly, the exact position of the satellite to 5 m in each coordinate and its speed to 5 mm/s (plus the error `ε` of the computed numbers; 2 mm by C95). -/
theorem C127_file (junk : ℝ) {prec : Int} (hp : 0 < prec) (D : Nat) {os : List OrbitRec} (h : ∀ o ∈ os, Installable o)
    (ha : ∀ o ∈ os, 0 ≤ o.alt ∧ o.alt ≤ 3600) {k : Nat} (hk : (sampleTimes prec.toNat D).length * (places os).length < k)
    {comp : TrackLine → Computed} {ε : ℝ} (hε : ε ≤ 1) (hc : ∀ l ∈ trace prec.toNat D os, ComputedTo ε l (comp l)) :
    ∃ F lines, tracingMain junk prec D os k = .ok F ∧ F.stopped = true ∧ trackFile comp F.out = trackHeading :: lines ∧
      List.Forall₂ (TellsTo (5 + ε) (0.005 + ε)) lines (trace prec.toNat D os) := by
  obtain ⟨F, e, hs, _, ho⟩ := C89_trace junk hp D h hk
  refine ⟨F, _, e, hs, rfl, ?_⟩
  rw [ho, List.forall₂_map_left_iff, List.forall₂_same]
  intro l hl
  obtain ⟨c1, c2, c3, c4⟩ := hc l hl
  obtain ⟨t, _, hl⟩ := List.mem_flatMap.mp hl
  obtain ⟨i, hi, rfl⟩ := List.mem_mapIdx.mp hl
  set o := ((places os)[i]).1 with hoo
  have hmem : o ∈ os := by
    have hm := List.getElem_mem hi
    unfold places at hm
    obtain ⟨o', ho', hm⟩ := List.mem_flatMap.mp hm
    obtain ⟨p', _, hm⟩ := List.mem_flatMap.mp hm
    obtain ⟨k', _, hm⟩ := List.mem_map.mp hm
    rw [hoo]
    unfold places
    rw [← hm]
    exact ho'
  obtain ⟨a1, a2⟩ := ha o hmem
  have hr1 : radius o ≤ 9971009 := by unfold radius; linarith
  have hr0 : 6371009 ≤ radius o := by unfold radius; linarith
  have hlen := track_len (o := o) (p := ((places os)[i]).2.1) (k := ((places os)[i]).2.2) (by linarith) ((t : ℝ) / 1000000000)
  generalize track o ((places os)[i]).2.1 ((places os)[i]).2.2 ((t : ℝ) / 1000000000) = v at *
  have hsq : v.x * v.x + v.y * v.y + v.z * v.z = radius o * radius o := by
    rw [← hlen]
    unfold Vec.len
    rw [Real.mul_self_sqrt (by nlinarith [mul_self_nonneg v.x, mul_self_nonneg v.y, mul_self_nonneg v.z])]
  have bx : |v.x| ≤ radius o := abs_le_of_sq_le_sq (by nlinarith [mul_self_nonneg v.y, mul_self_nonneg v.z]) (by linarith)
  have by' : |v.y| ≤ radius o := abs_le_of_sq_le_sq (by nlinarith [mul_self_nonneg v.x, mul_self_nonneg v.z]) (by linarith)
  have bz : |v.z| ≤ radius o := abs_le_of_sq_le_sq (by nlinarith [mul_self_nonneg v.x, mul_self_nonneg v.y]) (by linarith)
  have hv0 : 0 ≤ orbitSpeed o := Real.sqrt_nonneg _
  have hv1 : orbitSpeed o ≤ 8000 := by
    unfold orbitSpeed
    rw [Real.sqrt_le_left (by norm_num), div_le_iff₀ (by linarith)]
    nlinarith
  have e6 : (10000000 : ℝ) = ((10 ^ ((6 : Int) + 1) : ℚ) : ℝ) := by norm_num
  have e3 : (10000 : ℝ) = ((10 ^ ((3 : Int) + 1) : ℚ) : ℝ) := by norm_num
  have f6 : ((10 ^ ((6 : Int) - 5) / 2 : ℚ) : ℝ) = 5 := by norm_num
  have f3 : ((10 ^ ((3 : Int) - 5) / 2 : ℚ) : ℝ) = 0.005 := by norm_num
  refine ⟨_, _, _, _, shows_text _ _ _, ?_, ?_, ?_, ?_⟩
  · have := near c1 (by show |v.x| + ε < _; linarith) e6
    rwa [f6] at this
  · have := near c2 (by show |v.y| + ε < _; linarith) e6
    rwa [f6] at this
  · have := near c3 (by show |v.z| + ε < _; linarith) e6
    rwa [f6] at this
  · have := near c4 (by show |orbitSpeed o| + ε < _; rw [abs_of_nonneg hv0]; linarith) e3
    rwa [f3] at this

/-- **C127**: a line says one thing only. -/
theorem C127_unambiguous {line : List Char} {t t' n n' : Nat} {x y z v x' y' z' v' : ℚ} (h : ShowsTrack line t n x y z v)
    (h' : ShowsTrack line t' n' x' y' z' v') : t = t' ∧ n = n' ∧ x = x' ∧ y = y' ∧ z = z' ∧ v = v' := by
  obtain ⟨lt, ln, lx, ly, lz, lv, h1, h2, h3, h4, h5, h6, he⟩ := h
  obtain ⟨lt', ln', lx', ly', lz', lv', h1', h2', h3', h4', h5', h6', he'⟩ := h'
  rw [he] at he'
  have e1 : ".0ns:".toList = '.' :: "0ns:".toList := by decide
  have e2 : "+".toList = ['+'] := by decide
  have e3 : ":".toList = [':'] := by decide
  rw [e1, e2, e3] at he'
  simp only [List.append_assoc, List.cons_append, List.nil_append, List.cons.injEq, true_and] at he'
  obtain ⟨k1, g1⟩ := split_at (numeral_clean h1).1 (numeral_clean h1').1 he'
  obtain ⟨k2, g2⟩ := split_at (numeral_clean h2).2.2 (numeral_clean h2').2.2 (List.append_cancel_left g1)
  obtain ⟨k3, g3⟩ := split_at (float_clean h3).1 (float_clean h3').1 g2
  obtain ⟨k4, g4⟩ := split_at (float_clean h4).1 (float_clean h4').1 g3
  obtain ⟨k5, k6⟩ := split_at (float_clean h5).1 (float_clean h5').1 g4
  subst k1 k2 k3 k4 k5 k6
  exact ⟨numeral_eq h1 h1', numeral_eq h2 h2', float_unique h3 h3', float_unique h4 h4', float_unique h5 h5', float_unique h6 h6'⟩

/-- **C127**: the file is no table of comma separated values, although its heading is: the lines have no comma and five colons. -/
theorem C127_not_csv {comp : TrackLine → Computed} {out : List TrackLine} (hne : out ≠ []) : ¬ IsCsv (trackFile comp out) := by
  intro h
  obtain ⟨l, out, rfl⟩ := List.exists_cons_of_ne_nil hne
  have h1 := h trackHeading (by simp [trackFile]) (trackText l.time l.node (comp l)) (by simp [trackFile])
  obtain ⟨lt, ln, lx, ly, lz, lv, k1, k2, k3, k4, k5, k6, he⟩ := shows_text l.time l.node (comp l)
  have nc : ∀ {x : List Char} {n : Nat}, Numeral x n → x.count ',' = 0 := by
    intro x n hx
    exact List.count_eq_zero.mpr fun hm => (digit_clean (hx.1 _ hm)).2 rfl
  have c0 : "+".toList.count ',' = 0 := by decide
  have c1 : ".0ns:".toList.count ',' = 0 := by decide
  have c2 : ":".toList.count ',' = 0 := by decide
  have c3 : trackHeading.count ',' = 5 := by decide
  rw [he, c3] at h1
  simp only [List.count_append, nc k1, nc k2, List.count_eq_zero.mpr (float_clean k3).2, List.count_eq_zero.mpr (float_clean k4).2,
    List.count_eq_zero.mpr (float_clean k5).2, List.count_eq_zero.mpr (float_clean k6).2, c0, c1, c2] at h1
  omega

/-- **C127**: 5 m is what six digits give: positions 8 m apart are printed alike. -/
theorem C127_coarse : ∃ c c' : Computed, |c.x - c'.x| = 8 ∧ ∀ t n, trackText t n c = trackText t n c' := by
  refine ⟨⟨7571006, 0, 0, 7256⟩, ⟨7571014, 0, 0, 7256⟩, by norm_num, fun t n => ?_⟩
  have l1 : Int.log 10 |(7571006 : ℚ)| = 6 := by
    rw [abs_of_pos (by norm_num)]
    have e : Nat.log 10 7571006 = 6 := Nat.log_eq_of_pow_le_of_lt_pow (by norm_num) (by norm_num)
    have := Int.log_natCast (R := ℚ) 10 7571006
    rw [e] at this
    exact_mod_cast this
  have l2 : Int.log 10 |(7571014 : ℚ)| = 6 := by
    rw [abs_of_pos (by norm_num)]
    have e : Nat.log 10 7571014 = 6 := Nat.log_eq_of_pow_le_of_lt_pow (by norm_num) (by norm_num)
    have := Int.log_natCast (R := ℚ) 10 7571014
    rw [e] at this
    exact_mod_cast this
  have r1 : roundEven (|(7571006 : ℚ)| * 10 ^ (5 - (6 : Int))) = 757101 := roundEven_of_near (by rw [abs_of_pos (show (0 : ℚ) < 7571006 by norm_num)]; norm_num [abs_lt])
  have r2 : roundEven (|(7571014 : ℚ)| * 10 ^ (5 - (6 : Int))) = 757101 := roundEven_of_near (by rw [abs_of_pos (show (0 : ℚ) < 7571014 by norm_num)]; norm_num [abs_lt])
  have : showDouble 7571006 = showDouble 7571014 := by
    refine showDouble_congr (by norm_num) (by norm_num) (by norm_num) ?_ ?_
    · unfold sciExp; rw [l1, l2, r1, r2]
    · unfold sciNum; rw [l1, l2, r1, r2]
  unfold trackText
  rw [this]

/-- The built-in orbits are as `C127_file` asks for. -/
example (mem : Nat → Char × Char × Char) : (∀ o ∈ tracingOrbits mem none, Installable o) ∧ (∀ o ∈ tracingOrbits mem none, 0 ≤ o.alt ∧ o.alt ≤ 3600) := by
  refine ⟨builtin_installable mem, fun o ho => ?_⟩
  simp only [tracingOrbits, List.mem_cons, List.not_mem_nil, or_false] at ho
  rcases ho with rfl | rfl <;> norm_num

/-- There are numbers that differ by at most `ε` from the exact ones. -/
example (l : TrackLine) {ε : ℝ} (hε : 0 < ε) : ∃ c, ComputedTo ε l c := by
  have q : ∀ x : ℝ, ∃ q : ℚ, |(q : ℝ) - x| ≤ ε := by
    intro x
    obtain ⟨q, h1, h2⟩ := exists_rat_btwn (show x - ε < x + ε by linarith)
    exact ⟨q, by rw [abs_le]; constructor <;> linarith⟩
  obtain ⟨x, hx⟩ := q l.pos.x
  obtain ⟨y, hy⟩ := q l.pos.y
  obtain ⟨z, hz⟩ := q l.pos.z
  obtain ⟨v, hv⟩ := q l.speed
  exact ⟨⟨x, y, z, v⟩, hx, hy, hz, hv⟩

end Verif
