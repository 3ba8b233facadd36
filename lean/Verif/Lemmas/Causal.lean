import Verif.Spec.Causal
import Verif.Props.Order
import Verif.Lemmas.Mesh2
/-!
# Lemmas about ways of packets
-/

namespace Verif
open Spec

theorem now_le_exec {E : Env} {s s' : Sys} {ops : List Op} (hi : Inv s) (h : exec E s ops = .ok s') : s.now ≤ s'.now :=
  (exec_induct (P := fun x => Inv x ∧ s.now ≤ x.now) (fun _ _ _ hP hs => ⟨inv_step hP.1 hs, Nat.le_trans hP.2 (clock_step hP.1.clock hs).2.now⟩)
    ⟨hi, Nat.le_refl _⟩ h).2

theorem log_sub_exec {E : Env} {s s' : Sys} {ops : List Op} (hg : Good s) (h : exec E s ops = .ok s') {e : Time × Ev} (he : e ∈ s.log) :
    e ∈ s'.log := by
  refine (exec_induct (P := fun x => Good x ∧ e ∈ x.log) ?_ ⟨hg, he⟩ h).2
  rintro u u' op ⟨hu, hm⟩ hs
  exact ⟨good_step hu hs, by rw [log_prefix_step hu.inv hu.wired hs]; simp [hm]⟩

/-- A packet passed up was sent before the transmission that brought it began. -/
theorem sent_before {E : Env} {s0 s : Sys} {ops : List Op} (h0 : Initial s0) (h : exec E s0 ops = .ok s)
    (hfit : ∀ d q dest pr, Op.send d q dest pr ∈ ops → q.length ≤ 1492) {t : Time} {d : DevId} {p : Bytes} {proto : UInt16} {sa : Mac48}
    (hm : (t, Ev.rxCallback d p proto sa) ∈ s.log) :
    ∃ o1 src m pr o2 s1 tb c f tx del ns nd, ops = o1 ++ .send src p (.mac m) pr :: o2 ∧ exec E s0 o1 = .ok s1 ∧ s1.now ≤ tb ∧
      (tb, Ev.txrx c f src d tx del) ∈ s.log ∧ t = tb + del ∧ (s0.dev src).node = some ns ∧ (s0.dev d).node = some nd := by
  obtain ⟨o1, src, q, m, pr, o2, o3, s1, s2, rfl, e1, e2, -, -, ⟨tb, c, tx, del, htx, -, ht⟩, ⟨da, hdec, -⟩, -⟩ := C28_provenance h0 h hm
  obtain ⟨oA, op, oB, sA, sB, hops, f1, f2, f3, f4⟩ := log_entry_origin h0 e2 htx
  have hgA := good_exec h0 f1
  have fB : exec E s0 (oA ++ [op]) = .ok sB := by
    rw [exec_append, f1]
    simp only [Outcome.ok_bind, exec, f2]
  obtain ⟨_, _, _, _, _, htb, _, _, _, hbeg⟩ := txrx_step hgA.inv hgA.wired f2 f4
  obtain ⟨ns, nd, n1, n2, _⟩ := C26_delay_law h0 e2 htx
  have hgB := good_exec h0 fB
  have hacc : addHeader E.fcs q (s1.dev src).addr m pr ∈ accepted src sB.log := by
    rw [(hgB.inv.dev src).log.acc]
    refine List.mem_append_left _ (mem_begun.mpr ⟨sB.now, ?_⟩)
    · rw [log_prefix_step hgA.inv hgA.wired f2]
      exact List.mem_append_right _ hbeg
  obtain ⟨o1', q', m', pr', o2', s1', hops', g1, g2, g3⟩ := accepted_origin h0 fB hacc
  have hall : o1 ++ .send src q (.mac m) pr :: (o2 ++ .run :: o3) = o1' ++ .send src q' (.mac m') pr' :: (o2' ++ oB ++ .run :: o3) := by
    have : o1 ++ .send src q (.mac m) pr :: (o2 ++ .run :: o3) = (oA ++ [op]) ++ (oB ++ .run :: o3) := by
      have := congrArg (· ++ (.run :: o3)) hops
      simpa using this
    rw [this, hops']
    simp
  have hq' := hfit src q' (.mac m') pr' (by rw [hall]; simp)
  have hp : p = q' := by
    rw [g2, decode_addHeader, if_pos (by omega)] at hdec
    injection hdec with hdec
    injection hdec with hdec
    exact hdec.symm
  subst hp
  refine ⟨o1', src, m', pr', _, s1', tb, c, addHeader E.fcs q (s1.dev src).addr m pr, tx, del, ns, nd, hall, g1, ?_, ?_, ht, n1, n2⟩
  · rw [htb]
    exact (logSorted_exec h0 fB).2 _ g3
  · have hrun : exec E s2 (.run :: o3) = .ok s := by
      have := h
      rw [show o1 ++ .send src q (.mac m) pr :: (o2 ++ .run :: o3) = (o1 ++ .send src q (.mac m) pr :: o2) ++ .run :: o3 by simp, exec_append, e2] at this
      exact this
    exact log_sub_exec (good_exec h0 e2) hrun htx

/-! ### Ways -/

theorem way_mono {log log' : List (Time × Ev)} {node : DevId → Option NodeId} {a : NodeId} {T0 : Time} (hl : ∀ e ∈ log, e ∈ log') {n : NodeId}
    {t : Time} {l : List NodeId} (h : Way log node a T0 n t l) : Way log' node a T0 n t l := by
  induction h with
  | start => exact .start
  | wait _ ht ih => exact .wait ih ht
  | hop _ hm h1 h2 ih => exact .hop ih (hl _ hm) h1 h2

/-- Every node on a way is reached by a way of its own, not later and not longer. -/
theorem way_part {log : List (Time × Ev)} {node : DevId → Option NodeId} {a : NodeId} {T0 : Time} {n : NodeId} {t : Time} {l : List NodeId}
    (h : Way log node a T0 n t l) : ∀ m ∈ l, ∃ t' l', Way log node a T0 m t' l' ∧ t' ≤ t ∧ l'.Sublist l := by
  induction h with
  | start =>
    intro m hm
    simp only [List.mem_singleton] at hm
    subst hm
    exact ⟨T0, [m], .start, le_rfl, List.Sublist.refl _⟩
  | wait _ ht ih =>
    intro m hm
    obtain ⟨t', l', h1, h2, h3⟩ := ih m hm
    exact ⟨t', l', h1, h2.trans ht, h3⟩
  | @hop n m' t l c f src dst tx del h hm0 h1 h2 ih =>
    intro m hm
    rcases List.mem_append.mp hm with hm | hm
    · obtain ⟨t', l', g1, g2, g3⟩ := ih m hm
      exact ⟨t', l', g1, g2.trans (Nat.le_add_right _ _), g3.trans (List.sublist_append_left _ _)⟩
    · simp only [List.mem_singleton] at hm
      subst hm
      exact ⟨t + del, _, .hop h hm0 h1 h2, le_rfl, List.Sublist.refl _⟩

/-- There is no need to visit a node twice. -/
theorem way_once {log : List (Time × Ev)} {node : DevId → Option NodeId} {a : NodeId} {T0 : Time} {n : NodeId} {t : Time} {l : List NodeId}
    (h : Way log node a T0 n t l) : ∃ l', Way log node a T0 n t l' ∧ l'.Nodup := by
  induction h with
  | start => exact ⟨[a], .start, List.nodup_singleton _⟩
  | wait _ ht ih =>
    obtain ⟨l', h1, h2⟩ := ih
    exact ⟨l', .wait h1 ht, h2⟩
  | @hop n m t l c f src dst tx del h hm0 h1 h2 ih =>
    obtain ⟨l', g1, g2⟩ := ih
    by_cases hm : m ∈ l'
    · obtain ⟨t', l'', k1, k2, k3⟩ := way_part g1 m hm
      exact ⟨l'', .wait k1 (k2.trans (Nat.le_add_right _ _)), g2.sublist k3⟩
    · refine ⟨_, .hop g1 hm0 h1 h2, ?_⟩
      rw [List.nodup_append]
      exact ⟨g2, List.nodup_singleton _, fun x hx y hy => by
        simp only [List.mem_singleton] at hy
        subst hy
        rintro rfl
        exact hm hx⟩

theorem way_ends {log : List (Time × Ev)} {node : DevId → Option NodeId} {a : NodeId} {T0 : Time} {n : NodeId} {t : Time} {l : List NodeId}
    (h : Way log node a T0 n t l) : T0 ≤ t ∧ n ∈ l ∧ a ∈ l ∧ 1 ≤ l.length ∧ ∀ m ∈ l, m ≠ a → ∃ e ∈ log, ∃ c f src dst tx del,
      e.2 = Ev.txrx c f src dst tx del ∧ node dst = some m := by
  induction h with
  | start => exact ⟨le_rfl, by simp, by simp, by simp, fun m hm hne => absurd (by simpa using hm) hne⟩
  | wait _ ht ih => exact ⟨ih.1.trans ht, ih.2⟩
  | @hop n m t l c f src dst tx del h hm0 h1 h2 ih =>
    obtain ⟨i1, i2, i3, i4, i5⟩ := ih
    refine ⟨i1.trans (Nat.le_add_right _ _), by simp, by simp [i3], by simp, fun x hx hne => ?_⟩
    rcases List.mem_append.mp hx with hx | hx
    · exact i5 x hx hne
    · simp only [List.mem_singleton] at hx
      subst hx
      exact ⟨_, hm0, c, f, src, dst, tx, del, rfl, h2⟩

/-! ### Ways in space -/

/-- How long a hand-over between two moving nodes takes. -/
theorem handover_delay {K : Sky} {E : Env} {s0 s : Sys} {ops : List Op} (h0 : Initial s0) (h : exec (K.env E) s0 ops = .ok s) {t : Time} {c : ChanId}
    {f : Bytes} {src dst : DevId} {tx del : Time} (hm : (t, Ev.txrx c f src dst tx del) ∈ s.log) {n m : NodeId} (hn : (s0.dev src).node = some n)
    (hm' : (s0.dev dst).node = some m) {p q : Time → Vec} (hp : K.pos n = some p) (hq : K.pos m = some q) :
    del = K.ofSeconds ((q t - p t).len / K.speed) := by
  obtain ⟨ns, nd, n1, n2, hd, _⟩ := C26_delay_law h0 h hm
  rw [hn] at n1
  injection n1 with n1
  rw [hm'] at n2
  injection n2 with n2
  subst n1 n2
  unfold DelayLaw Sky.env at hd
  simpa [hp, hq] using hd

theorem way_far {K : Sky} {E : Env} {s0 s : Sys} {ops : List Op} (h0 : Initial s0) (h : exec (K.env E) s0 ops = .ok s) (hv : 0 < K.speed)
    (hof : ∀ x, 0 ≤ x → x * 1000000000 ≤ K.ofSeconds x + 1) {V : ℝ} {g : Time → ℝ}
    (hpos : ∀ t c f src dst tx del, (t, Ev.txrx c f src dst tx del) ∈ s.log → ∀ n, (s0.dev dst).node = some n →
      ∃ r, K.pos n = some r ∧ MovesBy V g r)
    {a : NodeId} {ra : Time → Vec} (hra : K.pos a = some ra) (hrm : MovesBy V g ra) {T0 : Time} {n : NodeId} {t : Time} {l : List NodeId}
    (hw : Way s.log (fun d => (s0.dev d).node) a T0 n t l) :
    ∃ r, K.pos n = some r ∧ MovesBy V g r ∧
      (r t - ra T0).len ≤ K.speed * (((t : ℝ) - T0 + (l.length - 1)) / 1000000000) + V * (g t - g T0) := by
  induction hw with
  | start =>
    refine ⟨ra, hra, hrm, ?_⟩
    have := hrm T0 T0 le_rfl
    simpa using this
  | @wait n t t' l _ ht ih =>
    obtain ⟨r, h1, h2, h3⟩ := ih
    refine ⟨r, h1, h2, ?_⟩
    have := dist_tri (r t') (r t) (ra T0)
    have hmv := h2 t t' ht
    have ht' : (t : ℝ) ≤ t' := by exact_mod_cast ht
    have : K.speed * (((t : ℝ) - T0 + (l.length - 1)) / 1000000000) ≤ K.speed * (((t' : ℝ) - T0 + (l.length - 1)) / 1000000000) := by
      apply mul_le_mul_of_nonneg_left _ hv.le
      apply div_le_div_of_nonneg_right _ (by norm_num)
      linarith
    linarith
  | @hop n m t l c f src dst tx del hw hm0 h1 h2 ih =>
    obtain ⟨p, p1, p2, p3⟩ := ih
    obtain ⟨q, q1, q2⟩ := hpos _ _ _ _ _ _ _ hm0 m h2
    refine ⟨q, q1, q2, ?_⟩
    have hd := handover_delay h0 h hm0 h1 h2 p1 q1
    have hnn : 0 ≤ (q t - p t).len / K.speed := div_nonneg (by unfold Vec.len; positivity) hv.le
    have hlow := hof _ hnn
    rw [← hd] at hlow
    have hdist : (q t - p t).len ≤ K.speed * (((del : ℝ) + 1) / 1000000000) := by
      have : (q t - p t).len = K.speed * ((q t - p t).len / K.speed) := by field_simp
      rw [this]
      apply mul_le_mul_of_nonneg_left _ hv.le
      rw [le_div_iff₀ (by norm_num)]
      exact hlow
    have t1 := dist_tri (q (t + del)) (q t) (ra T0)
    have t2 := dist_tri (q t) (p t) (ra T0)
    have hmv := q2 t (t + del) (Nat.le_add_right _ _)
    have e : K.speed * ((((t + del : Nat) : ℝ) - T0 + (((l ++ [m]).length : ℝ) - 1)) / 1000000000) =
        K.speed * (((t : ℝ) - T0 + (l.length - 1)) / 1000000000) + K.speed * (((del : ℝ) + 1) / 1000000000) := by
      simp only [List.length_append, List.length_singleton]
      push_cast
      ring
    rw [e]
    linarith

/-! ### Clocks of reported positions -/

/-- The clock of positions that are reported every `prec` nanoseconds: the latest and the earliest moment that may be reported. -/
def reportClock (prec t : Nat) : Nat := if prec = 0 then 2 * t else t / prec * prec + (t - 1) / prec * prec

theorem reported_bounds {prec t u : Nat} (h : Reported prec t u) (hp : prec ≠ 0) : (t - 1) / prec * prec ≤ u ∧ u ≤ t / prec * prec := by
  unfold Reported at h
  rw [if_neg hp] at h
  obtain ⟨⟨k, rfl⟩, h1, h2⟩ := h
  have hpos : 0 < prec := Nat.pos_of_ne_zero hp
  rw [Nat.mul_comm prec k] at *
  refine ⟨Nat.mul_le_mul_right _ ?_, Nat.mul_le_mul_right _ ((Nat.le_div_iff_mul_le hpos).mpr h1)⟩
  rw [Nat.div_le_iff_le_mul_add_pred hpos]
  rw [Nat.mul_comm prec k]
  omega

/-- What is reported of a motion of speed `V` moves by at most `V` times the growth of the clock. -/
theorem reported_moves {V : ℝ} {prec : Nat} {r q : Time → Vec} (hV : 0 ≤ V)
    (hq : ∀ t u : Time, (q t - q u).len ≤ V * |seconds t - seconds u|) (hr : ∀ t : Nat, ∃ u, Reported prec t u ∧ r t = q u) :
    MovesBy V (fun t => (reportClock prec t : ℝ) / 1000000000) r := by
  intro t u htu
  obtain ⟨t', h1, e1⟩ := hr t
  obtain ⟨u', h2, e2⟩ := hr u
  rcases Nat.eq_or_lt_of_le htu with rfl | hlt
  · simp [Vec.len]
  rw [e1, e2]
  refine (hq u' t').trans (mul_le_mul_of_nonneg_left ?_ hV)
  have key : t' ≤ u' ∧ u' + reportClock prec t ≤ reportClock prec u + t' := by
    unfold reportClock
    by_cases hp : prec = 0
    · simp only [Reported, hp, if_true] at h1 h2 ⊢
      omega
    · rw [if_neg hp, if_neg hp]
      have b1 := reported_bounds h1 hp
      have b2 := reported_bounds h2 hp
      have b3 : t / prec * prec ≤ (u - 1) / prec * prec := Nat.mul_le_mul_right _ (Nat.div_le_div_right (by omega))
      omega
  have k1 : (t' : ℝ) ≤ u' := by exact_mod_cast key.1
  have k2 : (u' : ℝ) + reportClock prec t ≤ reportClock prec u + t' := by exact_mod_cast key.2
  unfold seconds
  rw [abs_of_nonneg (by rw [← sub_div]; apply div_nonneg _ (by norm_num); linarith), ← sub_div, ← sub_div]
  apply div_le_div_of_nonneg_right _ (by norm_num)
  linarith

/-- The clock runs at most twice as fast as time, up to one interval. -/
theorem reportClock_le {prec t u : Nat} (h : t ≤ u) : reportClock prec u ≤ reportClock prec t + 2 * (u - t) + 2 * prec := by
  unfold reportClock
  by_cases hp : prec = 0
  · simp only [hp, if_true]; omega
  · rw [if_neg hp, if_neg hp]
    have hpos : 0 < prec := Nat.pos_of_ne_zero hp
    have a1 := Nat.div_mul_le_self u prec
    have a2 := Nat.div_mul_le_self (u - 1) prec
    have a3 := Nat.lt_div_mul_add (a := t) hpos
    have a4 := Nat.lt_div_mul_add (a := t - 1) hpos
    omega

end Verif
