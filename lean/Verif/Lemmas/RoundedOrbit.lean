import Verif.Lemmas.RoundedIsl
/-!
# Error of the rounded positions of satellites
-/

namespace Verif
open Real Verif.Spec

/-- Component by component, `v` is within `e` of `w`. -/
def Within (e : ℝ) (v w : Vec) : Prop := |v.x - w.x| ≤ e ∧ |v.y - w.y| ≤ e ∧ |v.z - w.z| ≤ e

theorem len_cross_le (a b : Vec) : (cross a b).len ≤ a.len * b.len := by
  have h1 : (cross a b).len ^ 2 = (a.len * b.len) ^ 2 - dot a b ^ 2 := by
    rw [len_sq', mul_pow, len_sq', len_sq']
    unfold cross dot
    ring
  exact le_of_sq_le (by nlinarith [sq_nonneg (dot a b)]) (mul_nonneg (len_nonneg _) (len_nonneg _))

theorem len_smul' (k : ℝ) (v : Vec) : (smul k v).len = |k| * v.len := by
  refine len_eq (mul_nonneg (abs_nonneg _) (len_nonneg _)) ?_
  have h1 := len_sq v
  have h2 := abs_mul_abs_self k
  calc dot (smul k v) (smul k v) = (k * k) * dot v v := by unfold dot smul; ring
    _ = |k| * v.len * (|k| * v.len) := by rw [← h1, ← h2]; ring

namespace Spec.Accurate
variable {F : Arith}

theorem sin_near (h : Accurate F) {a x e g : ℝ} (ha : |a - x| ≤ e) (hx : |x| ≤ 1e6) (he : e ≤ 1) (hg : e + 1e-15 ≤ g) :
    |F.sin a - Real.sin x| ≤ g := by
  obtain ⟨p1, p2⟩ := abs_le.mp ha
  obtain ⟨q1, q2⟩ := abs_le.mp hx
  have h1 := h.sin a (by rw [abs_le]; constructor <;> linarith)
  have h2 := Real.abs_sin_sub_sin_le a x
  calc |F.sin a - Real.sin x| = |(F.sin a - Real.sin a) + (Real.sin a - Real.sin x)| := by ring_nf
    _ ≤ |F.sin a - Real.sin a| + |Real.sin a - Real.sin x| := abs_add_le _ _
    _ ≤ g := by linarith

theorem cos_near (h : Accurate F) {a x e g : ℝ} (ha : |a - x| ≤ e) (hx : |x| ≤ 1e6) (he : e ≤ 1) (hg : e + 1e-15 ≤ g) :
    |F.cos a - Real.cos x| ≤ g := by
  obtain ⟨p1, p2⟩ := abs_le.mp ha
  obtain ⟨q1, q2⟩ := abs_le.mp hx
  have h1 := h.cos a (by rw [abs_le]; constructor <;> linarith)
  have h2 := Real.abs_cos_sub_cos_le a x
  calc |F.cos a - Real.cos x| = |(F.cos a - Real.cos a) + (Real.cos a - Real.cos x)| := by ring_nf
    _ ≤ |F.cos a - Real.cos a| + |Real.cos a - Real.cos x| := abs_add_le _ _
    _ ≤ g := by linarith

theorem latitude_near (h : Accurate F) {o' o : Orbit} {now : Time} (hn : (now : ℝ) ≤ 1e15) (hl : |o.lon| ≤ 100) (hd : |o'.lon - o.lon| ≤ 4e-14) :
    |F.latitude o' now - o.latitude now| ≤ 1e-12 ∧ |o.latitude now| ≤ 200 := by
  have n0 : (0 : ℝ) ≤ now := Nat.cast_nonneg _
  have hp := Real.pi_pos
  have hp4 := Real.pi_lt_d4
  have h1 : |F.rnd (now : ℝ) - now| ≤ 1.1 :=
    h.near (e := 0) (M := 1e15) (by simp) (by rw [abs_of_nonneg n0]; exact hn) (by norm_num) (by norm_num)
  have k1 : |(now : ℝ) / 86400000000000| ≤ 11.6 := by
    rw [abs_of_nonneg (by positivity), div_le_iff₀ (by norm_num)]; linarith
  have h2 : |F.div (F.rnd now) 86400000000000 - (now : ℝ) / 86400000000000| ≤ 3e-14 :=
    h.div_near (f := 0) h1 (by simp) k1 (by norm_num) (L := 86400000000000) (by norm_num) le_rfl (by norm_num) (by norm_num)
  have k2 : |(now : ℝ) / 86400000000000 * 2| ≤ 23.2 := by rw [abs_mul, abs_two]; linarith
  have h3 : |F.mul (F.div (F.rnd now) 86400000000000) 2 - (now : ℝ) / 86400000000000 * 2| ≤ 9e-14 :=
    h.mul_near (f := 0) (N := 2) h2 (by simp) k1 (by norm_num) (by norm_num) (by norm_num)
  have kp : |π| ≤ 3.1416 := by rw [abs_of_pos hp]; exact hp4.le
  have k3 : |(now : ℝ) / 86400000000000 * 2 * π| ≤ 73 := by
    rw [abs_mul]
    calc _ ≤ 23.2 * 3.1416 := mul_le_mul k2 kp (abs_nonneg _) (by norm_num)
      _ ≤ 73 := by norm_num
  have h4 : |F.mul (F.mul (F.div (F.rnd now) 86400000000000) 2) F.pi - (now : ℝ) / 86400000000000 * 2 * π| ≤ 5e-13 :=
    h.mul_near h3 h.pi k2 kp (by norm_num) (by norm_num)
  have k4 : |o.lon + (now : ℝ) / 86400000000000 * 2 * π| ≤ 200 := (abs_add_le _ _).trans (by linarith)
  exact ⟨h.add_near hd h4 k4 (by norm_num) (by norm_num), k4⟩

theorem speed_near (h : Accurate F) {o' o : Orbit} (h1 : 6471 ≤ o.height) (h2 : o.height ≤ 20000) (hd : |o'.height - o.height| ≤ 3e-11) :
    |F.speed o' - o.speed| ≤ 1.3e-10 ∧ |o.speed| ≤ 7900 := by
  have h1' : 6470 ≤ o'.height := by have := (abs_le.mp hd).1; linarith
  have hgm : |F.rnd earthGm - earthGm| ≤ 5e-14 :=
    h.near (e := 0) (M := 40) (by simp) (by unfold earthGm; norm_num) (by norm_num) (by norm_num)
  have hq : |earthGm / o.height| ≤ 0.0062 := by
    unfold earthGm
    rw [abs_of_nonneg (by positivity), div_le_iff₀ (by linarith)]
    linarith
  have hq0 : 0.0019 ≤ earthGm / o.height := by
    unfold earthGm
    rw [le_div_iff₀ (by linarith)]
    linarith
  have h3 : |F.div (F.rnd earthGm) o'.height - earthGm / o.height| ≤ 4.5e-17 :=
    h.div_near hgm hd hq (by linarith) (by norm_num : (0 : ℝ) < 6470) h1' (by norm_num) (by norm_num)
  have hr1 : 0.04 ≤ √(earthGm / o.height) := Real.le_sqrt_of_sq_le (by linarith)
  have hr2 : √(earthGm / o.height) ≤ 0.079 := (Real.sqrt_le_left (by norm_num)).mpr (by have := (abs_le.mp hq).2; linarith)
  have h4 : |F.sqrt (F.div (F.rnd earthGm) o'.height) - √(earthGm / o.height)| ≤ 1.22e-15 := by
    refine h.sqrt_near h3 ?_ (by linarith) (by norm_num : (0 : ℝ) < 0.04) hr1 hr2 (by norm_num) (by norm_num)
    have := (abs_le.mp h3).1
    linarith
  have kr : |√(earthGm / o.height)| ≤ 0.079 := by rw [abs_of_nonneg (Real.sqrt_nonneg _)]; exact hr2
  refine ⟨h.mul_near (f := 0) (N := 100000) h4 (by simp) kr (by norm_num) (by norm_num) (by norm_num), ?_⟩
  unfold Orbit.speed
  rw [abs_mul]
  calc |√(earthGm / o.height)| * |100000| ≤ 0.079 * 100000 := mul_le_mul kr (by norm_num) (abs_nonneg _) (by norm_num)
    _ = 7900 := by norm_num

theorem progress_near (h : Accurate F) {o' o : Orbit} {t : Time} (h1 : 6471 ≤ o.height) (h2 : o.height ≤ 20000) (hn : (t : ℝ) ≤ 1e15)
    (ho : |o.off| ≤ 100) (hd : |o'.height - o.height| ≤ 3e-11) (hdo : |o'.off - o.off| ≤ 4e-14)
    (hi : o'.incl > F.div F.pi 2 ↔ o.incl > π / 2) :
    |F.progress o' t - o.progress t| ≤ 3.3e-11 ∧ |o.progress t| ≤ 2000 := by
  obtain ⟨s1, s2⟩ := h.speed_near h1 h2 hd
  have n0 : (0 : ℝ) ≤ t := Nat.cast_nonneg _
  have hsec : |(t : ℝ) / 1000000000| ≤ 1e6 := by
    rw [abs_of_nonneg (by positivity), div_le_iff₀ (by norm_num)]; linarith
  have h3 : |F.rnd ((t : ℝ) / 1000000000) - (t : ℝ) / 1000000000| ≤ 1.1e-9 :=
    h.near (e := 0) (by simp) hsec (by norm_num) (by norm_num)
  have h4 : |F.mul (F.speed o') (F.rnd ((t : ℝ) / 1000000000)) - o.speed * ((t : ℝ) / 1000000000)| ≤ 1.5e-4 :=
    h.mul_near s1 h3 s2 hsec (by norm_num) (by norm_num)
  have k4 : |o.speed * ((t : ℝ) / 1000000000)| ≤ 7.9e9 := by
    rw [abs_mul]
    calc _ ≤ 7900 * 1e6 := mul_le_mul s2 hsec (abs_nonneg _) (by norm_num)
      _ = 7.9e9 := by norm_num
  have h5 : |F.rnd earthRadKm - earthRadKm| ≤ 7e-12 :=
    h.near (e := 0) (M := 6400) (by simp) (by unfold earthRadKm; norm_num) (by norm_num) (by norm_num)
  have h6 : |F.mul (F.rnd earthRadKm) 1000 - earthRadKm * 1000| ≤ 1.4e-8 :=
    h.mul_near (f := 0) (M := 6400) (N := 1000) h5 (by simp) (by unfold earthRadKm; norm_num) (by norm_num) (by norm_num) (by norm_num)
  have hL : 6.3e6 ≤ F.mul (F.rnd earthRadKm) 1000 := by
    have := (abs_le.mp h6).1
    unfold earthRadKm at this
    unfold earthRadKm
    linarith
  have hR : 0 < earthRadKm * 1000 := by unfold earthRadKm; norm_num
  have k7 : |o.speed * ((t : ℝ) / 1000000000) / (earthRadKm * 1000)| ≤ 1260 := by
    rw [abs_div, abs_of_pos hR, div_le_iff₀ hR]
    unfold earthRadKm
    linarith
  have h7 : |F.div (F.mul (F.speed o') (F.rnd ((t : ℝ) / 1000000000))) (F.mul (F.rnd earthRadKm) 1000) -
      o.speed * ((t : ℝ) / 1000000000) / (earthRadKm * 1000)| ≤ 2.9e-11 :=
    h.div_near h4 h6 k7 hR (by norm_num : (0 : ℝ) < 6.3e6) hL (by norm_num) (by norm_num)
  unfold Arith.progress Orbit.progress seconds
  dsimp only
  have hs : ∀ sg : ℝ, |sg| = 1 →
      |F.add (F.mul sg (F.div (F.mul (F.speed o') (F.rnd ((t : ℝ) / 1000000000))) (F.mul (F.rnd earthRadKm) 1000))) o'.off -
        (sg * (o.speed * ((t : ℝ) / 1000000000) / (earthRadKm * 1000)) + o.off)| ≤ 3.3e-11 ∧
      |sg * (o.speed * ((t : ℝ) / 1000000000) / (earthRadKm * 1000)) + o.off| ≤ 2000 := by
    intro sg hsg
    have k8 : |sg * (o.speed * ((t : ℝ) / 1000000000) / (earthRadKm * 1000))| ≤ 1260 := by rw [abs_mul, hsg, one_mul]; exact k7
    have h8 : |F.mul sg (F.div (F.mul (F.speed o') (F.rnd ((t : ℝ) / 1000000000))) (F.mul (F.rnd earthRadKm) 1000)) -
        sg * (o.speed * ((t : ℝ) / 1000000000) / (earthRadKm * 1000))| ≤ 3.04e-11 :=
      h.mul_near (e := 0) (M := 1) (by simp) h7 hsg.le k7 (by norm_num) (by norm_num)
    have k9 := (abs_add_le (sg * (o.speed * ((t : ℝ) / 1000000000) / (earthRadKm * 1000))) o.off).trans (by linarith : _ ≤ (2000 : ℝ))
    exact ⟨h.add_near h8 hdo k9 (by norm_num) (by norm_num), k9⟩
  by_cases hgt : o.incl > π / 2
  · rw [if_pos hgt, if_pos (hi.mpr hgt)]; exact hs (-1) (by norm_num)
  · rw [if_neg hgt, if_neg (fun hc => hgt (hi.mp hc))]; exact hs 1 (by norm_num)

/-- A bound of the components. -/
def _root_.Verif.CompLe (M : ℝ) (v : Vec) : Prop := |v.x| ≤ M ∧ |v.y| ≤ M ∧ |v.z| ≤ M

theorem _root_.Verif.compLe_of_len {v : Vec} {M : ℝ} (h : v.len ≤ M) : CompLe M v := by
  obtain ⟨h1, h2, h3⟩ := comp_le v
  exact ⟨h1.trans h, h2.trans h, h3.trans h⟩

theorem smulV_near (h : Accurate F) {a x e f M N g : ℝ} {v w : Vec} (ha : |a - x| ≤ e) (hv : Within f v w) (hx : |x| ≤ M) (hw : CompLe N w)
    (hM : M * N + (e * N + f * M + e * f) ≤ 1e100)
    (hg : (e * N + f * M + e * f) + 1e-15 * (M * N + (e * N + f * M + e * f)) + 1e-100 ≤ g) : Within g (F.smulV a v) (smul x w) :=
  ⟨h.mul_near ha hv.1 hx hw.1 hM hg, h.mul_near ha hv.2.1 hx hw.2.1 hM hg, h.mul_near ha hv.2.2 hx hw.2.2 hM hg⟩

theorem addV_near (h : Accurate F) {e f M g : ℝ} {v w v' w' : Vec} (hv : Within e v w) (hv' : Within f v' w') (hM : CompLe M (w + w'))
    (hB : M + (e + f) ≤ 1e100) (hg : (e + f) + 1e-15 * (M + (e + f)) + 1e-100 ≤ g) : Within g (F.addV v v') (w + w') :=
  ⟨h.add_near hv.1 hv'.1 hM.1 hB hg, h.add_near hv.2.1 hv'.2.1 hM.2.1 hB hg, h.add_near hv.2.2 hv'.2.2 hM.2.2 hB hg⟩

theorem crossV_near (h : Accurate F) {e f M N p K g : ℝ} {v w v' w' : Vec} (hv : Within e v w) (hv' : Within f v' w') (hw : CompLe M w)
    (hw' : CompLe N w') (hK : CompLe K (cross w w')) (hM : M * N + (e * N + f * M + e * f) ≤ 1e100)
    (hp : (e * N + f * M + e * f) + 1e-15 * (M * N + (e * N + f * M + e * f)) + 1e-100 ≤ p)
    (hB : K + (p + p) ≤ 1e100) (hg : (p + p) + 1e-15 * (K + (p + p)) + 1e-100 ≤ g) : Within g (F.crossV v v') (cross w w') :=
  ⟨h.sub_near (h.mul_near hv.2.1 hv'.2.2 hw.2.1 hw'.2.2 hM hp) (h.mul_near hv.2.2 hv'.2.1 hw.2.2 hw'.2.1 hM hp) hK.1 hB hg,
    h.sub_near (h.mul_near hv.2.2 hv'.1 hw.2.2 hw'.1 hM hp) (h.mul_near hv.1 hv'.2.2 hw.1 hw'.2.2 hM hp) hK.2.1 hB hg,
    h.sub_near (h.mul_near hv.1 hv'.2.1 hw.1 hw'.2.1 hM hp) (h.mul_near hv.2.1 hv'.1 hw.2.1 hw'.1 hM hp) hK.2.2 hB hg⟩

theorem rotate_near (h : Accurate F) {n' n x' x : Vec} {a' a : ℝ} (hn : Within 1.1e-12 n' n) (hx : Within 2.4e-5 x' x) (ha : |a' - a| ≤ 3.3e-11)
    (hab : |a| ≤ 2000) (n1 : n.len ≤ 1) (x1 : x.len ≤ 2e7) : Within 2e-3 (F.rotatePlane n' a' x') (rotatePlane n a x) := by
  have nc := compLe_of_len n1
  have xc := compLe_of_len x1
  have n0 := len_nonneg n
  have x0 := len_nonneg x
  have hnx : n.len * x.len ≤ 2e7 := by nlinarith
  have hdot : |dot n x| ≤ 2e7 := (abs_dot_le n x).trans hnx
  have m2 : ∀ {p q : ℝ}, |p| ≤ 1 → |q| ≤ 2e7 → |p * q| ≤ 2e7 := by
    intro p q hp hq
    rw [abs_mul]
    calc |p| * |q| ≤ 1 * 2e7 := mul_le_mul hp hq (abs_nonneg _) (by norm_num)
      _ = 2e7 := by norm_num
  have d1 : |F.dotV n' x' - dot n x| ≤ 1.5e-4 := by
    refine h.add_near (e := 9.5e-5) (f := 4.7e-5) ?_ (h.mul_near hn.2.2 hx.2.2 nc.2.2 xc.2.2 (by norm_num) (by norm_num)) hdot (by norm_num) (by norm_num)
    refine h.add_near (e := 4.7e-5) (f := 4.7e-5) (M := 4e7) (h.mul_near hn.1 hx.1 nc.1 xc.1 (by norm_num) (by norm_num))
      (h.mul_near hn.2.1 hx.2.1 nc.2.1 xc.2.1 (by norm_num) (by norm_num)) ?_ (by norm_num) (by norm_num)
    have e1 := m2 nc.1 xc.1
    have e2 := m2 nc.2.1 xc.2.1
    exact (abs_add_le _ _).trans (by linarith)
  have d2 : Within 2e-4 (F.smulV (F.dotV n' x') n') (smul (dot n x) n) := h.smulV_near d1 hn hdot nc (by norm_num) (by norm_num)
  have l2 : (smul (dot n x) n).len ≤ 2e7 := by
    rw [len_smul']
    calc |dot n x| * n.len ≤ 2e7 * 1 := mul_le_mul hdot n1 n0 (by norm_num)
      _ = 2e7 := by norm_num
  have l3 : (cross n x).len ≤ 2e7 := (len_cross_le n x).trans hnx
  have d3 : Within 1e-4 (F.crossV n' x') (cross n x) :=
    h.crossV_near (p := 4.7e-5) hn hx nc xc (compLe_of_len l3) (by norm_num) (by norm_num) (by norm_num) (by norm_num)
  have l4 : (cross (cross n x) n).len ≤ 2e7 := by
    refine (len_cross_le _ n).trans ?_
    calc (cross n x).len * n.len ≤ 2e7 * 1 := mul_le_mul l3 n1 n0 (by norm_num)
      _ = 2e7 := by norm_num
  have d4 : Within 2.6e-4 (F.crossV (F.crossV n' x') n') (cross (cross n x) n) :=
    h.crossV_near (p := 1.25e-4) d3 hn (compLe_of_len l3) nc (compLe_of_len l4) (by norm_num) (by norm_num) (by norm_num) (by norm_num)
  have c1 : |F.cos a' - Real.cos a| ≤ 3.4e-11 := h.cos_near ha (by linarith) (by norm_num) (by norm_num)
  have c2 : |F.sin a' - Real.sin a| ≤ 3.4e-11 := h.sin_near ha (by linarith) (by norm_num) (by norm_num)
  have d5 : Within 9.6e-4 (F.smulV (F.cos a') (F.crossV (F.crossV n' x') n')) (smul (Real.cos a) (cross (cross n x) n)) :=
    h.smulV_near c1 d4 (Real.abs_cos_le_one a) (compLe_of_len l4) (by norm_num) (by norm_num)
  have d6 : Within 7.9e-4 (F.smulV (F.sin a') (F.crossV n' x')) (smul (Real.sin a) (cross n x)) :=
    h.smulV_near c2 d3 (Real.abs_sin_le_one a) (compLe_of_len l3) (by norm_num) (by norm_num)
  have l5 : (smul (Real.cos a) (cross (cross n x) n)).len ≤ 2e7 := by
    rw [len_smul']
    calc _ ≤ 1 * 2e7 := mul_le_mul (Real.abs_cos_le_one a) l4 (len_nonneg _) (by norm_num)
      _ = 2e7 := by norm_num
  have l6 : (smul (Real.sin a) (cross n x)).len ≤ 2e7 := by
    rw [len_smul']
    calc _ ≤ 1 * 2e7 := mul_le_mul (Real.abs_sin_le_one a) l3 (len_nonneg _) (by norm_num)
      _ = 2e7 := by norm_num
  have l7 := (len_add_le (smul (dot n x) n) (smul (Real.cos a) (cross (cross n x) n))).trans (by linarith : _ ≤ (4e7 : ℝ))
  have l8 := (len_add_le (smul (dot n x) n + smul (Real.cos a) (cross (cross n x) n)) (smul (Real.sin a) (cross n x))).trans
    (by linarith : _ ≤ (6e7 : ℝ))
  exact h.addV_near (e := 1.17e-3) (h.addV_near d2 d5 (compLe_of_len l7) (by norm_num) (by norm_num)) d6 (compLe_of_len l8) (by norm_num) (by norm_num)

/-- Rounded positions are within 2 mm of the exact ones in every coordinate. -/
theorem position_near (h : Accurate F) {o' o : Orbit} {now : Time} (h1 : 6471 ≤ o.height) (h2 : o.height ≤ 20000) (hn : (now : ℝ) ≤ 1e15)
    (hl : |o.lon| ≤ 100) (ho : |o.off| ≤ 100) (hinc : |o.incl| ≤ 100) (hi : o'.incl > F.div F.pi 2 ↔ o.incl > π / 2)
    (hd : |o'.height - o.height| ≤ 3e-11) (hdi : |o'.incl - o.incl| ≤ 1e-14) (hdl : |o'.lon - o.lon| ≤ 4e-14)
    (hdo : |o'.off - o.off| ≤ 4e-14) :
    Within 2e-3 (F.position o' now) (o.position now) := by
  obtain ⟨lat, latb⟩ := h.latitude_near hn hl hdl
  obtain ⟨pr, prb⟩ := h.progress_near h1 h2 hn ho hd hdo hi
  have cl : |F.cos (F.latitude o' now) - Real.cos (o.latitude now)| ≤ 1.01e-12 := h.cos_near lat (by linarith) (by norm_num) (by norm_num)
  have sl : |F.sin (F.latitude o' now) - Real.sin (o.latitude now)| ≤ 1.01e-12 := h.sin_near lat (by linarith) (by norm_num) (by norm_num)
  have ci : |F.cos o'.incl - Real.cos o.incl| ≤ 1.2e-14 := h.cos_near hdi (by linarith) (by norm_num) (by norm_num)
  have si : |F.sin o'.incl - Real.sin o.incl| ≤ 1.2e-14 := h.sin_near hdi (by linarith) (by norm_num) (by norm_num)
  have sm : |F.sin (-o'.incl) - Real.sin (-o.incl)| ≤ 1.2e-14 :=
    h.sin_near (e := 1e-14) (by rw [← abs_neg]; ring_nf; ring_nf at hdi; exact hdi) (by rw [abs_neg]; linarith) (by norm_num) (by norm_num)
  have hN : Within 1.1e-12 (F.planeNorm o' now) (o.norm now) := by
    refine ⟨h.mul_near sm cl (Real.abs_sin_le_one _) (Real.abs_cos_le_one _) (by norm_num) (by norm_num),
      h.mul_near sm sl (Real.abs_sin_le_one _) (Real.abs_sin_le_one _) (by norm_num) (by norm_num), ?_⟩
    exact ci.trans (by norm_num)
  have hlenN : (o.norm now).len ≤ 1 := by
    refine (len_eq (by norm_num) ?_).le
    unfold Orbit.norm dot
    have e1 := sin_sq_add_cos_sq (o.latitude now)
    have e2 := sin_sq_add_cos_sq o.incl
    simp only [Real.sin_neg]
    linear_combination (Real.sin o.incl) ^ 2 * e1 + e2
  have hh : |F.mul o'.height 1000 - o.height * 1000| ≤ 5.1e-8 :=
    h.mul_near (f := 0) (M := 20000) (N := 1000) hd (by simp) (by rw [abs_of_nonneg (by linarith)]; exact h2) (by norm_num)
      (by norm_num) (by norm_num)
  have hhb : |o.height * 1000| ≤ 2e7 := by rw [abs_of_nonneg (by linarith)]; linarith
  have hdir : Within 1.1e-12 ⟨F.mul (F.cos o'.incl) (F.cos (F.latitude o' now)), F.mul (F.cos o'.incl) (F.sin (F.latitude o' now)), F.sin o'.incl⟩
      ⟨Real.cos o.incl * Real.cos (o.latitude now), Real.cos o.incl * Real.sin (o.latitude now), Real.sin o.incl⟩ :=
    ⟨h.mul_near ci cl (Real.abs_cos_le_one _) (Real.abs_cos_le_one _) (by norm_num) (by norm_num),
      h.mul_near ci sl (Real.abs_cos_le_one _) (Real.abs_sin_le_one _) (by norm_num) (by norm_num), si.trans (by norm_num)⟩
  have hdirl : (⟨Real.cos o.incl * Real.cos (o.latitude now), Real.cos o.incl * Real.sin (o.latitude now), Real.sin o.incl⟩ : Vec).len ≤ 1 := by
    refine (len_eq (by norm_num) ?_).le
    unfold dot
    have e1 := sin_sq_add_cos_sq (o.latitude now)
    have e2 := sin_sq_add_cos_sq o.incl
    simp only
    linear_combination (Real.cos o.incl) ^ 2 * e1 + e2
  refine h.rotate_near hN (h.smulV_near hh hdir hhb (compLe_of_len hdirl) (by norm_num) (by norm_num)) pr prb hlenN ?_
  rw [len_smul']
  calc _ ≤ 2e7 * 1 := mul_le_mul hhb hdirl (len_nonneg _) (by norm_num)
    _ = 2e7 := by norm_num

theorem planeNorm_near (h : Accurate F) {o' o : Orbit} {now : Time} (hn : (now : ℝ) ≤ 1e15) (hl : |o.lon| ≤ 100) (hinc : |o.incl| ≤ 100)
    (hdi : |o'.incl - o.incl| ≤ 1e-14) (hdl : |o'.lon - o.lon| ≤ 4e-14) :
    Within 1.1e-12 (F.planeNorm o' now) (o.norm now) ∧ (o.norm now).len ≤ 1 := by
  obtain ⟨lat, latb⟩ := h.latitude_near hn hl hdl
  have cl : |F.cos (F.latitude o' now) - Real.cos (o.latitude now)| ≤ 1.01e-12 := h.cos_near lat (by linarith) (by norm_num) (by norm_num)
  have sl : |F.sin (F.latitude o' now) - Real.sin (o.latitude now)| ≤ 1.01e-12 := h.sin_near lat (by linarith) (by norm_num) (by norm_num)
  have ci : |F.cos o'.incl - Real.cos o.incl| ≤ 1.2e-14 := h.cos_near hdi (by linarith) (by norm_num) (by norm_num)
  have sm : |F.sin (-o'.incl) - Real.sin (-o.incl)| ≤ 1.2e-14 :=
    h.sin_near (e := 1e-14) (by rw [← abs_neg]; ring_nf; ring_nf at hdi; exact hdi) (by rw [abs_neg]; linarith) (by norm_num) (by norm_num)
  refine ⟨⟨h.mul_near sm cl (Real.abs_sin_le_one _) (Real.abs_cos_le_one _) (by norm_num) (by norm_num),
      h.mul_near sm sl (Real.abs_sin_le_one _) (Real.abs_sin_le_one _) (by norm_num) (by norm_num), ci.trans (by norm_num)⟩, ?_⟩
  refine (len_eq (by norm_num) ?_).le
  unfold Orbit.norm dot
  have e1 := sin_sq_add_cos_sq (o.latitude now)
  have e2 := sin_sq_add_cos_sq o.incl
  simp only [Real.sin_neg]
  linear_combination (Real.sin o.incl) ^ 2 * e1 + e2

theorem velocity_near (h : Accurate F) {o' o : Orbit} {now : Time} {pos' pos : Vec} (h1 : 6471 ≤ o.height) (h2 : o.height ≤ 20000)
    (hn : (now : ℝ) ≤ 1e15) (hl : |o.lon| ≤ 100) (hinc : |o.incl| ≤ 100) (hd : |o'.height - o.height| ≤ 3e-11)
    (hdi : |o'.incl - o.incl| ≤ 1e-14) (hdl : |o'.lon - o.lon| ≤ 4e-14) (hp : Within 2e-3 pos' pos) (p1 : 6.4e6 ≤ pos.len) (p2 : pos.len ≤ 2e7) :
    Within 3e-5 (F.velocity o' now pos') (o.velocity now pos) := by
  obtain ⟨n1, n2⟩ := h.planeNorm_near hn hl hinc hdi hdl
  obtain ⟨s1, s2⟩ := h.speed_near h1 h2 hd
  have p0 : 0 < pos.len := by linarith
  have l1 : |pos'.len - pos.len| ≤ 6e-3 := (abs_len_sub _ _).trans (by have := hp.1; have := hp.2.1; have := hp.2.2; linarith)
  have l2 : |F.len pos' - pos.len| ≤ 6.1e-3 := by
    have a := abs_le.mp l1
    have b := abs_le.mp (h.len_near pos' (by linarith))
    exact abs_le.mpr ⟨by linarith, by linarith⟩
  have l3 : 6.3e6 ≤ F.len pos' := by have := (abs_le.mp l2).1; linarith
  have hc : ∀ {x : ℝ}, |x| ≤ pos.len → |x / pos.len| ≤ 1 := by
    intro x hx
    rw [abs_div, abs_of_pos p0, div_le_one p0]
    exact hx
  obtain ⟨c1, c2, c3⟩ := comp_le pos
  have hu : Within 1.4e-9 ⟨F.div pos'.x (F.len pos'), F.div pos'.y (F.len pos'), F.div pos'.z (F.len pos')⟩
      ⟨pos.x / pos.len, pos.y / pos.len, pos.z / pos.len⟩ :=
    ⟨h.div_near hp.1 l2 (hc c1) p0 (by norm_num : (0 : ℝ) < 6.3e6) l3 (by norm_num) (by norm_num),
      h.div_near hp.2.1 l2 (hc c2) p0 (by norm_num : (0 : ℝ) < 6.3e6) l3 (by norm_num) (by norm_num),
      h.div_near hp.2.2 l2 (hc c3) p0 (by norm_num : (0 : ℝ) < 6.3e6) l3 (by norm_num) (by norm_num)⟩
  have ul : (⟨pos.x / pos.len, pos.y / pos.len, pos.z / pos.len⟩ : Vec).len ≤ 1 := by
    refine (len_eq (by norm_num) ?_).le
    have := len_sq pos
    unfold dot at this ⊢
    simp only
    field_simp
    linarith
  have xl : (cross (o.norm now) ⟨pos.x / pos.len, pos.y / pos.len, pos.z / pos.len⟩).len ≤ 1 :=
    (len_cross_le _ _).trans (by nlinarith [len_nonneg (o.norm now), len_nonneg (⟨pos.x / pos.len, pos.y / pos.len, pos.z / pos.len⟩ : Vec)])
  exact h.smulV_near s1 (h.crossV_near (p := 1.42e-9) (g := 2.9e-9) n1 hu (compLe_of_len n2) (compLe_of_len ul) (compLe_of_len xl) (by norm_num)
    (by norm_num) (by norm_num) (by norm_num)) s2 (compLe_of_len xl) (by norm_num) (by norm_num)

theorem fraction_near (h : Accurate F) {p P : Nat} (hp : p < P) :
    |F.mul (F.mul 2 F.pi) (F.div p P) - 2 * π * ((p : ℝ) / P)| ≤ 4e-14 ∧ |2 * π * ((p : ℝ) / P)| ≤ 6.3 := by
  have hp0 := Real.pi_pos
  have hp4 := Real.pi_lt_d4
  have P1 : (1 : ℝ) ≤ P := by exact_mod_cast (by omega : 1 ≤ P)
  have hpP : (p : ℝ) ≤ P := by exact_mod_cast hp.le
  have k1 : |(p : ℝ) / P| ≤ 1 := by
    rw [abs_of_nonneg (by positivity), div_le_one (by linarith)]
    exact hpP
  have h1 : |F.div p P - (p : ℝ) / P| ≤ 1.1e-15 :=
    h.div_near (e := 0) (f := 0) (by simp) (by simp) k1 (by linarith) (by norm_num : (0 : ℝ) < 1) P1 (by norm_num) (by norm_num)
  have kp : |π| ≤ 3.1416 := by rw [abs_of_pos hp0]; exact hp4.le
  have k2 : |2 * π| ≤ 6.2832 := by rw [abs_of_pos (by linarith)]; linarith
  have h2 : |F.mul 2 F.pi - 2 * π| ≤ 8.4e-15 := h.mul_near (e := 0) (M := 2) (by simp) h.pi (by norm_num) kp (by norm_num) (by norm_num)
  refine ⟨h.mul_near h2 h1 k2 k1 (by norm_num) (by norm_num), ?_⟩
  rw [abs_mul]
  calc _ ≤ 6.2832 * 1 := mul_le_mul k2 k1 (abs_nonneg _) (by norm_num)
    _ ≤ 6.3 := by norm_num

theorem incl_near (h : Accurate F) {i : ℝ} (hi : |i| ≤ 180) : |F.mul (F.div i 180) F.pi - i / 180 * π| ≤ 1e-14 ∧ |i / 180 * π| ≤ 3.2 := by
  have hp0 := Real.pi_pos
  have hp4 := Real.pi_lt_d4
  have kp : |π| ≤ 3.1416 := by rw [abs_of_pos hp0]; exact hp4.le
  have k1 : |i / 180| ≤ 1 := by
    rw [abs_div, abs_of_pos (by norm_num : (0 : ℝ) < 180), div_le_one (by norm_num)]
    exact hi
  have h1 : |F.div i 180 - i / 180| ≤ 1.1e-15 :=
    h.div_near (e := 0) (f := 0) (by simp) (by simp) k1 (by norm_num) (by norm_num : (0 : ℝ) < 180) le_rfl (by norm_num) (by norm_num)
  refine ⟨h.mul_near h1 h.pi k1 kp (by norm_num) (by norm_num), ?_⟩
  rw [abs_mul]
  calc _ ≤ 1 * 3.1416 := mul_le_mul k1 kp (abs_nonneg _) (by norm_num)
    _ ≤ 3.2 := by norm_num

theorem height_near (h : Accurate F) {alt : ℝ} (h0 : 0 ≤ alt) (h1 : alt ≤ 13600) : |F.add (F.rnd earthRadKm) alt - (earthRadKm + alt)| ≤ 3e-11 := by
  have h5 : |F.rnd earthRadKm - earthRadKm| ≤ 7e-12 :=
    h.near (e := 0) (M := 6400) (by simp) (by unfold earthRadKm; norm_num) (by norm_num) (by norm_num)
  exact h.add_near (f := 0) (M := 2e4) h5 (by simp) (by unfold earthRadKm; rw [abs_of_nonneg (by linarith)]; linarith) (by norm_num) (by norm_num)

/-- The sign of the motion is that of exact arithmetic if the inclination is not too close to 90 degrees. -/
theorem sign_near (h : Accurate F) {i : ℝ} (hi : |i| ≤ 180) (h9 : 1e-12 ≤ |i - 90|) :
    F.mul (F.div i 180) F.pi > F.div F.pi 2 ↔ i / 180 * π > π / 2 := by
  have hp3 := Real.pi_gt_three
  have hp4 := Real.pi_lt_d4
  have h1 := abs_le.mp (h.incl_near hi).1
  have h2 : |F.div F.pi 2 - π / 2| ≤ 3e-15 :=
    h.div_near (f := 0) (K := 1.6) h.pi (by simp) (by rw [abs_of_pos (by linarith)]; linarith) (by norm_num) (by norm_num : (0 : ℝ) < 2) le_rfl
      (by norm_num) (by norm_num)
  have h2 := abs_le.mp h2
  rcases le_or_gt i 90 with hle | hgt
  · rw [abs_of_nonpos (by linarith)] at h9
    have : i / 180 * π ≤ π / 2 - 1.6e-14 := by nlinarith
    constructor <;> intro hc <;> linarith
  · rw [abs_of_pos (by linarith)] at h9
    have : π / 2 + 1.6e-14 ≤ i / 180 * π := by nlinarith
    constructor <;> intro hc <;> linarith

/-- A place on the ground from rounded angles. -/
theorem ground_near (h : Accurate F) {la' la lo' lo : ℝ} (h1 : |la' - la| ≤ 1e-13) (h2 : |lo' - lo| ≤ 1e-13) (k1 : |la| ≤ 1e6) (k2 : |lo| ≤ 1e6) :
    Within 2e-6 ⟨F.mul (F.mul gndRad (F.sin la')) (F.cos lo'), F.mul (F.mul gndRad (F.sin la')) (F.sin lo'), F.mul gndRad (F.cos la')⟩
      ⟨gndRad * Real.sin la * Real.cos lo, gndRad * Real.sin la * Real.sin lo, gndRad * Real.cos la⟩ := by
  have s1 : |F.sin la' - Real.sin la| ≤ 1.02e-13 := h.sin_near h1 k1 (by norm_num) (by norm_num)
  have c1 : |F.cos la' - Real.cos la| ≤ 1.02e-13 := h.cos_near h1 k1 (by norm_num) (by norm_num)
  have s2 : |F.sin lo' - Real.sin lo| ≤ 1.02e-13 := h.sin_near h2 k2 (by norm_num) (by norm_num)
  have c2 : |F.cos lo' - Real.cos lo| ≤ 1.02e-13 := h.cos_near h2 k2 (by norm_num) (by norm_num)
  have g : |gndRad| ≤ 6371000 := by unfold gndRad; norm_num
  have m1 : |F.mul gndRad (F.sin la') - gndRad * Real.sin la| ≤ 7e-7 :=
    h.mul_near (e := 0) (by simp) s1 g (Real.abs_sin_le_one _) (by norm_num) (by norm_num)
  have m2 : |F.mul gndRad (F.cos la') - gndRad * Real.cos la| ≤ 2e-6 :=
    h.mul_near (e := 0) (by simp) c1 g (Real.abs_cos_le_one _) (by norm_num) (by norm_num)
  have k3 : |gndRad * Real.sin la| ≤ 6371000 := by
    rw [abs_mul]
    calc _ ≤ 6371000 * 1 := mul_le_mul g (Real.abs_sin_le_one _) (abs_nonneg _) (by norm_num)
      _ = 6371000 := by norm_num
  exact ⟨h.mul_near m1 c2 k3 (Real.abs_cos_le_one _) (by norm_num) (by norm_num), h.mul_near m1 s2 k3 (Real.abs_sin_le_one _) (by norm_num) (by norm_num),
    m2⟩

end Spec.Accurate

end Verif
