import Verif.Lemmas.Causal2
import Verif.Props.Mesh
import Verif.Lemmas.Load
/-!
# No packet is faster than the signal (C112)
-/

namespace Verif
open Real Spec

theorem carried_prefix {E : Env} {s0 : Sys} {Q : Bytes → Prop} {a : NodeId} {t0 : Time} {o1 o2 : List Op}
    (h : CarriedFrom E s0 Q a t0 (o1 ++ o2)) : CarriedFrom E s0 Q a t0 o1 :=
  fun p1 src q dest pr p2 s1 he hx => h p1 src q dest pr (p2 ++ o2) s1 (by rw [he]; simp) hx

theorem carried_fits {E : Env} {s0 s : Sys} {Q : Bytes → Prop} {a : NodeId} {t0 : Time} {ops : List Op} (h : CarriedFrom E s0 Q a t0 ops)
    (hx : exec E s0 ops = .ok s) : ∀ d q dest pr, Op.send d q dest pr ∈ ops → q.length ≤ 1492 := by
  intro d q dest pr hm
  obtain ⟨o1, o2, rfl⟩ := List.append_of_mem hm
  rw [exec_append, Outcome.bind_eq_ok] at hx
  obtain ⟨s1, h1, _⟩ := hx
  exact (h o1 d q dest pr o2 s1 rfl h1).1

/-- **C112**: whatever the nodes do with packets — forward, flood, copy, delay or carry them — a packet that comes from node `a` and is passed
up elsewhere got there on a way of transmissions that were made one after the other, from a `Send` of node `a` on, by nodes that had
received it before, and no node need be passed twice. -/
theorem C112_way {E : Env} {s0 s : Sys} {ops : List Op} (h0 : Initial s0) (h : exec E s0 ops = .ok s) {Q : Bytes → Prop} {a : NodeId} {t0 : Time}
    (hc : CarriedFrom E s0 Q a t0 ops) {t : Time} {d : DevId} {p : Bytes} {proto : UInt16} {sa : Mac48}
    (hm : (t, Ev.rxCallback d p proto sa) ∈ s.log) (hQ : Q p) :
    ∃ T0 n l, t0 ≤ T0 ∧ (s0.dev d).node = some n ∧ Way s.log (fun d => (s0.dev d).node) a T0 n t l ∧ l.Nodup ∧
      ∃ o1 src q dest pr o2 s1, ops = o1 ++ .send src q dest pr :: o2 ∧ exec E s0 o1 = .ok s1 ∧ s1.now = T0 ∧ (s0.dev src).node = some a ∧ Q q := by
  suffices H : ∀ k, ∀ ops : List Op, ops.length ≤ k → ∀ s, exec E s0 ops = .ok s → CarriedFrom E s0 Q a t0 ops → ∀ t d p proto sa,
      (t, Ev.rxCallback d p proto sa) ∈ s.log → Q p → ∃ T0 n l, t0 ≤ T0 ∧ (s0.dev d).node = some n ∧
        Way s.log (fun d => (s0.dev d).node) a T0 n t l ∧
        ∃ o1 src q dest pr o2 s1, ops = o1 ++ .send src q dest pr :: o2 ∧ exec E s0 o1 = .ok s1 ∧ s1.now = T0 ∧ (s0.dev src).node = some a ∧ Q q by
    obtain ⟨T0, n, l, r1, r2, r3, r4⟩ := H _ ops le_rfl s h hc t d p proto sa hm hQ
    obtain ⟨l', w1, w2⟩ := way_once r3
    exact ⟨T0, n, l', r1, r2, w1, w2, r4⟩
  clear hm hQ h hc
  intro k
  induction k with
  | zero =>
    intro ops hk s h _ t d p proto sa hm
    rw [List.length_eq_zero_iff.mp (Nat.le_zero.mp hk)] at h
    injection h with h
    rw [← h, h0.log] at hm
    cases hm
  | succ k ih =>
    intro ops hk s h hc t d p proto sa hm hQ
    obtain ⟨o1, src, m, pr, o2, s1, tb, c, f, tx, del, ns, nd, rfl, e1, e2, e3, e4, e5, e6⟩ := sent_before h0 h (carried_fits hc h) hm
    have hsub : ∀ e ∈ s1.log, e ∈ s.log := by
      intro e he
      rw [exec_append, e1] at h
      exact log_sub_exec (good_exec h0 e1) h he
    rcases (hc o1 src p (.mac m) pr o2 s1 rfl e1).2 hQ with ⟨g1, g2⟩ | ⟨t', d', p', proto', sa', g1, g2, g3, g4⟩
    · rw [e5] at g1
      injection g1 with g1
      subst g1
      refine ⟨s1.now, nd, [ns] ++ [nd], g2, e6, ?_, o1, src, p, _, pr, o2, s1, rfl, e1, rfl, e5, hQ⟩
      rw [e4]
      exact .hop (.wait .start e2) e3 e5 e6
    · obtain ⟨T0, n, l, r1, r2, r3, q1, src', q', dest', pr', q2, s1', r4, r5⟩ := ih o1 (by simp at hk; omega) s1 e1 (carried_prefix hc) t' d' p' proto' sa' g1 g2
      rw [r2, e5] at g3
      injection g3 with g3
      subst g3
      have ht' : t' ≤ s1.now := (logSorted_exec h0 e1).2 _ g1
      refine ⟨T0, nd, l ++ [nd], r1, e6, ?_, q1, src', q', dest', pr', q2 ++ .send src p (.mac m) pr :: o2, s1', by rw [r4]; simp, r5⟩
      rw [e4]
      exact .hop (.wait (way_mono hsub r3) (ht'.trans e2)) e3 e5 e6

/-- **C112**: between moving nodes a packet covers no more ground than the signal does, except by the motion of the nodes that carry it.  From the
moment its source sends it, a packet passed up at another node has come at most as far as the speed of the delay model
allows, plus one nanosecond per node passed (the rounding of the delays), plus the way the nodes move meanwhile. -/
theorem C112_light {K : Sky} {E : Env} {s0 s : Sys} {ops : List Op} (h0 : Initial s0) (h : exec (K.env E) s0 ops = .ok s) (hv : 0 < K.speed)
    (hof : ∀ x, 0 ≤ x → x * 1000000000 ≤ K.ofSeconds x + 1) {V : ℝ} {g : Time → ℝ}
    (hpos : ∀ t c f src dst tx del, (t, Ev.txrx c f src dst tx del) ∈ s.log → ∀ n, (s0.dev dst).node = some n →
      ∃ r, K.pos n = some r ∧ MovesBy V g r)
    {Q : Bytes → Prop} {a : NodeId} {t0 : Time} {ra : Time → Vec} (hra : K.pos a = some ra) (hrm : MovesBy V g ra)
    (hc : CarriedFrom (K.env E) s0 Q a t0 ops) {t : Time} {d : DevId} {p : Bytes} {proto : UInt16} {sa : Mac48}
    (hm : (t, Ev.rxCallback d p proto sa) ∈ s.log) (hQ : Q p) :
    ∃ (T0 : Time) (n : NodeId) (l : List NodeId) (r : Time → Vec), t0 ≤ T0 ∧ T0 ≤ t ∧ (s0.dev d).node = some n ∧ K.pos n = some r ∧ l.Nodup ∧
      (∀ m ∈ l, m ≠ a → ∃ e ∈ s.log, ∃ c f src dst tx del, e.2 = Ev.txrx c f src dst tx del ∧ (s0.dev dst).node = some m) ∧
      (r t - ra T0).len ≤ K.speed * (((t : ℝ) - T0 + (l.length - 1)) / 1000000000) + V * (g t - g T0) := by
  obtain ⟨T0, n, l, r1, r2, r3, r4, _⟩ := C112_way h0 h hc hm hQ
  obtain ⟨r, k1, _, k3⟩ := way_far h0 h hv hof hpos hra hrm r3
  obtain ⟨w1, _, _, _, w5⟩ := way_ends r3
  exact ⟨T0, n, l, r, r1, w1, r2, k1, r4, w5, k3⟩

/-- **C112** for positions that are always up to date, of nodes no faster than `V`: a packet is at most as fast as the signal plus `V`. -/
theorem C112_exact {K : Sky} {E : Env} {s0 s : Sys} {ops : List Op} (h0 : Initial s0) (h : exec (K.env E) s0 ops = .ok s) (hv : 0 < K.speed)
    (hof : ∀ x, 0 ≤ x → x * 1000000000 ≤ K.ofSeconds x + 1) {V : ℝ} {N : Nat}
    (hpos : ∀ t c f src dst tx del, (t, Ev.txrx c f src dst tx del) ∈ s.log → ∀ n, (s0.dev dst).node = some n →
      @LT.lt Nat _ n N ∧ ∃ r, K.pos n = some r ∧ SlowerThan V r)
    {Q : Bytes → Prop} {a : NodeId} {t0 : Time} {ra : Time → Vec} (ha : @LT.lt Nat _ a N) (hra : K.pos a = some ra) (hrm : SlowerThan V ra)
    (hc : CarriedFrom (K.env E) s0 Q a t0 ops) {t : Time} {d : DevId} {p : Bytes} {proto : UInt16} {sa : Mac48}
    (hm : (t, Ev.rxCallback d p proto sa) ∈ s.log) (hQ : Q p) :
    ∃ T0 n r, t0 ≤ T0 ∧ T0 ≤ t ∧ (s0.dev d).node = some n ∧ K.pos n = some r ∧
      (r t - ra T0).len ≤ (K.speed + V) * (seconds t - seconds T0) + K.speed * (((N : ℝ) - 1) / 1000000000) := by
  have hmv : ∀ r, SlowerThan V r → MovesBy V seconds r := by
    intro r hr t u htu
    refine (hr u t).trans (le_of_eq ?_)
    have : (t : ℝ) ≤ u := by exact_mod_cast htu
    unfold seconds
    rw [abs_of_nonneg]
    rw [← sub_div]
    exact div_nonneg (by linarith) (by norm_num)
  obtain ⟨T0, n, l, r, r1, r2, r3, r4, r5, r6, r7⟩ := C112_light h0 h hv hof (V := V) (g := seconds)
    (fun t c f src dst tx del hm n hn => by
      obtain ⟨_, r, h1, h2⟩ := hpos t c f src dst tx del hm n hn
      exact ⟨r, h1, hmv r h2⟩) hra (hmv ra hrm) hc hm hQ
  refine ⟨T0, n, r, r1, r2, r3, r4, r7.trans ?_⟩
  have hlen : l.length ≤ N := by
    have : l.Subperm (List.range N) := List.subperm_of_subset r5 fun m hm => by
      by_cases hne : m = a
      · rw [hne]; exact List.mem_range.mpr ha
      · obtain ⟨⟨t, _⟩, he, c, f, sd, dst, tx, del, rfl, hd⟩ := r6 m hm hne
        exact List.mem_range.mpr (hpos t c f sd dst tx del he m hd).1
    simpa using this.length_le
  have hl : (l.length : ℝ) ≤ N := by exact_mod_cast hlen
  have e : K.speed * (((t : ℝ) - T0 + (l.length - 1)) / 1000000000) ≤ K.speed * (seconds t - seconds T0) + K.speed * (((N : ℝ) - 1) / 1000000000) := by
    rw [← mul_add]
    refine mul_le_mul_of_nonneg_left ?_ hv.le
    unfold seconds
    rw [← sub_div, ← add_div]
    exact div_le_div_of_nonneg_right (by linarith) (by norm_num)
  linarith

/-! ## Programs that forward -/

/-- **C112**: programs that pass packets on from the receive callbacks, each node what it received, are of this kind: if the packets come
from `a` when they start, they still do whatever the forwarding decisions are. -/
theorem C112_forwarding {E : Env} {s0 : Sys} (h0 : Initial s0) {R : Forwarder} (hR : PassesOn s0 R) {Q : Bytes → Prop} {a : NodeId} {t0 : Time} :
    ∀ (n : Nat) {ops : List Op} {s s' : Sys}, exec E s0 ops = .ok s → CarriedFrom E s0 Q a t0 ops → relay E R n s = .ok s' →
      ∃ more, exec E s0 (ops ++ more) = .ok s' ∧ CarriedFrom E s0 Q a t0 (ops ++ more) ∧
        ∀ op ∈ more, op = .run ∨ ∃ d q m pr, op = .send d q (.mac m) pr ∧ q.length ≤ 1492 := by
  intro n
  induction n with
  | zero =>
    intro ops s s' h hc hr
    injection hr with hr
    subst hr
    exact ⟨[], by simpa using h, by simpa using hc, by simp⟩
  | succ n ih =>
    intro ops s s' h hc hr
    rw [relay, Outcome.bind_eq_ok] at hr
    obtain ⟨u, hu, hr⟩ := hr
    obtain ⟨v, sends, k1, k2, k3, _⟩ := runK_carries (good_exec h0 h) hu
    have hv : exec E s0 (ops ++ [.run]) = .ok v := by
      rw [exec_append, h]
      simp only [Outcome.ok_bind, exec, step, k1]
    have hcv : CarriedFrom E s0 Q a t0 (ops ++ [.run]) := by
      intro p1 src q dest pr p2 s1 he hx
      rcases List.eq_nil_or_concat p2 with rfl | ⟨p2', z, rfl⟩
      · have := List.append_inj' (t₁ := [Op.run]) (t₂ := [Op.send src q dest pr]) he rfl
        cases this.2
      · rw [List.concat_eq_append] at he
        have he' : ops ++ [.run] = (p1 ++ .send src q dest pr :: p2') ++ [z] := by rw [he]; simp
        have := List.append_inj' he' rfl
        exact hc p1 src q dest pr p2' s1 this.1 hx
    have hu' : exec E s0 (ops ++ [.run] ++ sends) = .ok u := by rw [exec_append, hv]; exact k2
    have hcu : CarriedFrom E s0 Q a t0 (ops ++ [.run] ++ sends) ∧
        ∀ op ∈ sends, op = .run ∨ ∃ d q m pr, op = .send d q (.mac m) pr ∧ q.length ≤ 1492 := by
      rcases k3 with rfl | ⟨t, x, p, proto, sa, d, p', dest, proto', l1, l2, rfl⟩
      · exact ⟨by simpa using hcv, by simp⟩
      · obtain ⟨rfl, rfl, hdest, nn, n1, n2⟩ := hR _ _ _ _ _ _ _ _ l2
        have hin : (t, Ev.rxCallback x p' proto' sa) ∈ v.log := by
          have hg := good_exec h0 h
          rw [log_prefix_step (E := E) (op := .run) hg.inv hg.wired k1]
          exact List.mem_append_right _ l1
        have hlen : p'.length ≤ 1492 := by
          obtain ⟨o1, src, m, pr, o2, s1, _, _, _, _, _, _, _, hops, _⟩ := sent_before h0 hv (carried_fits hcv hv) hin
          exact carried_fits hcv hv src p' (.mac m) pr (by rw [hops]; simp)
        refine ⟨?_, ?_⟩
        · intro p1 src q dest' pr p2 s1 he hx
          rcases List.eq_nil_or_concat p2 with rfl | ⟨p2', z, rfl⟩
          · have := List.append_inj' (t₁ := [Op.send d p' dest proto']) (t₂ := [Op.send src q dest' pr]) he rfl
            obtain ⟨e1, e2⟩ := this
            simp only [List.cons.injEq, Op.send.injEq, and_true] at e2
            obtain ⟨rfl, rfl, rfl, rfl⟩ := e2
            rw [← e1, hv] at hx
            injection hx with hx
            subst hx
            exact ⟨hlen, fun hq => Or.inr ⟨t, x, p', proto', sa, hin, hq, by rw [n1, n2], by rw [n1]; simp⟩⟩
          · rw [List.concat_eq_append] at he
            have he' : ops ++ [.run] ++ [Op.send d p' dest proto'] = (p1 ++ .send src q dest' pr :: p2') ++ [z] := by rw [he]; simp
            have := List.append_inj' he' rfl
            exact hcv p1 src q dest' pr p2' s1 this.1 hx
        · intro op hop
          rw [List.mem_singleton] at hop
          subst hop
          cases dest with
          | mac m => exact Or.inr ⟨d, p', m, proto', rfl, hlen⟩
          | other => exact absurd rfl hdest
    obtain ⟨more, m1, m2, m3⟩ := ih hu' hcu.1 hr
    refine ⟨[.run] ++ sends ++ more, by simpa using m1, by simpa using m2, ?_⟩
    intro op hop
    simp only [List.mem_append, List.mem_singleton] at hop
    rcases hop with (rfl | hop) | hop
    · exact Or.inl rfl
    · exact hcu.2 op hop
    · exact m3 op hop

/-! ## The example programs -/

/-- Attaching devices before the traffic says nothing about the packets. -/
theorem carried_after {E : Env} {s0 s1 : Sys} {o ops : List Op} (hat : ∀ op ∈ o, ∃ d c, op = .attach d c) (hex : exec E s0 o = .ok s1)
    {Q : Bytes → Prop} {a : NodeId} {t0 : Time} : CarriedFrom E s0 Q a t0 (o ++ ops) ↔ CarriedFrom E s1 Q a t0 ops := by
  have same : ∀ d, (s0.dev d).node = (s1.dev d).node := fun d => (node_exec hex d).symm
  constructor
  · intro hc p1 sd q dest pr p2 u he hu
    have := hc (o ++ p1) sd q dest pr p2 u (by rw [he]; simp) (by rw [exec_append, hex]; exact hu)
    simpa only [same] using this
  · intro hc p1 sd q dest pr p2 u he hu
    have hpre : ∃ p1', p1 = o ++ p1' ∧ ops = p1' ++ .send sd q dest pr :: p2 := by
      rcases List.append_eq_append_iff.mp he with ⟨z, e1, e2⟩ | ⟨z, e1, e2⟩
      · exact ⟨z, e1, e2⟩
      · cases z with
        | nil => exact ⟨[], by simpa using e1.symm, by simpa using e2.symm⟩
        | cons y z =>
          injection e2 with e2 _
          obtain ⟨d, c, e⟩ := hat y (by rw [e1]; simp)
          rw [e] at e2
          cases e2
    obtain ⟨p1', rfl, e2⟩ := hpre
    rw [exec_append, hex] at hu
    have := hc p1' sd q dest pr p2 u e2 hu
    simpa only [same] using this

/-- All nodes of the example programs move by the same clock. -/
theorem example_node_moves {a : ExampleArgs} {X : ExampleNet} {K : Sky} (hK : SkyOf a X K) (ho : ∀ o ∈ a.orbits, Installable o)
    (halt : ∀ o ∈ a.orbits, o.alt ≤ 2000) (hsurf : ∀ x ∈ X.ground, ∃ v, x = some v)
    {n : Nat} (hn : n < (places a.orbits).length + X.ground.length) :
    ∃ r, K.pos n = some r ∧ MovesBy 9700 (fun t => (reportClock a.prec.toNat t : ℝ) / 1000000000) r := by
  by_cases hlt : n < (places a.orbits).length
  · obtain ⟨⟨o, i, k⟩, hx⟩ : ∃ x, (places a.orbits)[n]? = some x := ⟨_, List.getElem?_eq_getElem hlt⟩
    obtain ⟨f, hf, hr⟩ := hK.sat n o i k hx
    have hm := (places_orbit (List.mem_of_getElem? hx)).1
    have ha := (ho o hm).2.2.2.2
    have hb := halt o hm
    refine ⟨f, hf, reported_moves (q := (orbitOf (o, i, k)).position) (by norm_num) (slower_low_orbit ?_ ?_) fun t => ?_⟩
    · show 0 < earthRadKm + o.alt
      unfold earthRadKm; linarith
    · show earthRadKm + o.alt ≤ earthRadKm + 2000
      linarith
    · obtain ⟨u, hu, he⟩ := hr t
      exact ⟨u, hu, by rw [he]; exact (track_eq (x := (o, i, k)) ha u).symm⟩
  · have hj : n - (places a.orbits).length < X.ground.length := by omega
    obtain ⟨v, hv⟩ := hsurf _ (List.getElem_mem hj)
    have := hK.gnd (n - (places a.orbits).length) v (by rw [List.getElem?_eq_getElem hj, hv])
    rw [Nat.add_sub_cancel' (by omega)] at this
    exact ⟨_, this, reported_moves (q := fun _ => v) (by norm_num) (fun t u => by simp [Vec.len]) fun t =>
      ⟨if a.prec.toNat = 0 then t else t / a.prec.toNat * a.prec.toNat, by
        unfold Reported
        split
        · rfl
        · rename_i hp
          have hpos := Nat.pos_of_ne_zero hp
          have h1 := Nat.div_mul_le_self t a.prec.toNat
          have h2 := Nat.lt_div_mul_add (a := t) hpos
          exact ⟨⟨_, Nat.mul_comm _ _⟩, h1, by omega⟩, rfl⟩⟩

/-- **C112 for the example programs**: with satellites up to 2000 km high, whatever protocols and applications do, a packet that comes from
one node has, when it is passed up at another, come no further than light since it was sent, give or take the motion of the
satellites (19.4 km per second and update interval) and a nanosecond per node of the network. -/
theorem C112_example {junk : ℝ} {a : ExampleArgs} {p : Preset} (hp : p ∈ presets) (hn : a.constellation = p.name)
    (ho : ∀ o ∈ a.orbits, Installable o) (hm : 2 * (places a.orbits).length + a.lonGws * a.latGws % 2 ^ 32 + 2 < 2 ^ 48)
    (halt : ∀ o ∈ a.orbits, o.alt ≤ 2000) {s : Sys} (h0 : Initial s) {X : ExampleNet}
    (h : exampleMain junk a s = .ok X) {K : Sky} (hK : SkyOf a X K) (hof : ∀ x, 0 ≤ x → x * 1000000000 ≤ K.ofSeconds x + 1)
    (hv : 0 < K.speed) {E : Env} {ops : List Op} (ht : ∀ op ∈ ops, PlainTraffic op) {s1 : Sys} (hx : exec (K.env E) X.build.sys ops = .ok s1)
    {Q : Bytes → Prop} {src : Nat} (hsrc : src < (places a.orbits).length + X.ground.length) {t0 : Time}
    (hc : CarriedFrom (K.env E) X.build.sys Q src t0 ops) {t : Time} {d : DevId} {q : Bytes} {proto : UInt16} {sa : Mac48}
    (hr : (t, Ev.rxCallback d q proto sa) ∈ s1.log) (hQ : Q q) :
    ∃ (T0 : Time) (n : NodeId) (rs rd : Time → Vec), t0 ≤ T0 ∧ T0 ≤ t ∧ (X.build.sys.dev d).node = some n ∧ K.pos src = some rs ∧ K.pos n = some rd ∧
      (rd t - rs T0).len ≤ K.speed * (seconds t - seconds T0 + ((places a.orbits).length + X.ground.length) / 1000000000) +
        9700 * (2 * (seconds t - seconds T0) + 2 * seconds a.prec.toNat) := by
  have B := built_of hp hn ho hm h
  obtain ⟨is, hrun⟩ := B.run
  obtain ⟨s0, o, hi, hat, hex, _⟩ := C62_helper_network_is_history h0 hrun
  have hall : exec (K.env E) s0 (o ++ ops) = .ok s1 := by rw [exec_append, hex]; exact hx
  have same : ∀ d, (s0.dev d).node = (X.build.sys.dev d).node := fun d => (node_exec (hex (K.env E)) d).symm
  have hsurf : ∀ x ∈ X.ground, ∃ v, x = some v := fun x hx => by
    obtain ⟨v, hv, _⟩ := B.surface x hx
    exact ⟨v, hv⟩
  have hN : satCount a = (places a.orbits).length := rfl
  -- the nodes of the devices
  have hnode : ∀ d : Nat, d < X.build.nextDev → ∃ n : Nat, (s0.dev d).node = some n ∧ n < (places a.orbits).length + X.ground.length := by
    intro d hd
    rw [B.next] at hd
    rw [same]
    by_cases hlt : d < satCount a + X.ground.length
    · obtain ⟨v, hv, _, _, h3, _⟩ := B.dev d hlt
      exact ⟨d, by rw [hv]; exact h3, hlt⟩
    · cases hisl : a.islEnabled with
      | false => rw [B.noIsl hisl] at hd; exact absurd hd hlt
      | true =>
        obtain ⟨h1, _, _, h4⟩ := B.isl hisl
        rw [h1, List.length_range'] at hd
        obtain ⟨i, rfl⟩ := Nat.exists_eq_add_of_le (Nat.le_of_not_lt hlt)
        obtain ⟨v, hv, _, h5, _⟩ := h4 i (by omega)
        exact ⟨i, by rw [hv]; exact h5, by omega⟩
  have hops : ∀ op ∈ o ++ ops, (∃ d c : Nat, op = .attach d c ∧ d < X.build.nextDev) ∨ PlainTraffic op := by
    intro op hop
    rcases List.mem_append.mp hop with hop | hop
    · obtain ⟨d, c, e, h1, _⟩ := hat op hop
      exact Or.inl ⟨d, c, e, h1⟩
    · exact Or.inr (ht op hop)
  have hhand : ∀ t c f src dst tx del, (t, Ev.txrx c f src dst tx del) ∈ s1.log → ∀ n, (s0.dev dst).node = some n →
      @LT.lt Nat _ n ((places a.orbits).length + X.ground.length) := by
    intro t c f src dst tx del hm n hn
    obtain ⟨n', e, hlt⟩ := hnode dst (below_handed hi hops hall hm)
    rw [hn] at e
    injection e with e
    subst e
    exact hlt
  -- the packets still come from the source
  have hc' := (carried_after (fun op hop => by
    obtain ⟨d, c, e, _⟩ := hat op hop
    exact ⟨d, c, e⟩) (hex (K.env E))).mpr hc
  obtain ⟨rs, hrs, hmrs⟩ := example_node_moves hK ho halt hsurf hsrc
  obtain ⟨T0, n, l, r, r1, r2, r3, r4, r5, r6, r7⟩ := C112_light hi hall hv hof (V := 9700)
    (g := fun t => (reportClock a.prec.toNat t : ℝ) / 1000000000)
    (fun t c f src dst tx del hm n hn => example_node_moves hK ho halt hsurf (hhand t c f src dst tx del hm n hn)) hrs hmrs hc' hr hQ
  refine ⟨T0, n, rs, r, r1, r2, by rw [← same]; exact r3, hrs, r4, r7.trans (add_le_add ?_ ?_)⟩
  · refine mul_le_mul_of_nonneg_left ?_ hv.le
    have hlen : l.length ≤ (places a.orbits).length + X.ground.length := by
      have : l.Subperm (List.range ((places a.orbits).length + X.ground.length)) := List.subperm_of_subset r5 fun m hm => by
        by_cases hne : m = src
        · rw [hne]; exact List.mem_range.mpr hsrc
        · obtain ⟨⟨t, _⟩, he, c, f, sd, dst, tx, del, rfl, hd⟩ := r6 m hm hne
          exact List.mem_range.mpr (hhand _ _ _ _ _ _ _ he m hd)
      simpa using this.length_le
    have hl : (l.length : ℝ) ≤ (places a.orbits).length + X.ground.length := by exact_mod_cast hlen
    unfold seconds
    rw [← sub_div, ← add_div]
    exact div_le_div_of_nonneg_right (by linarith) (by norm_num)
  · refine mul_le_mul_of_nonneg_left ?_ (by norm_num)
    have := reportClock_le (prec := a.prec.toNat) r2
    have h1 : (reportClock a.prec.toNat t : ℝ) ≤ reportClock a.prec.toNat T0 + 2 * ((t : ℝ) - T0) + 2 * a.prec.toNat := by
      have := (Nat.cast_le (α := ℝ)).mpr this
      push_cast [Nat.cast_sub r2] at this
      exact this
    unfold seconds
    rw [← sub_div, ← sub_div, mul_div_assoc', mul_div_assoc', ← add_div]
    exact div_le_div_of_nonneg_right (by linarith) (by norm_num)

/-! ## The built-in users -/

/-- The places of the two users are more than 8560 km apart (in a straight line). -/
theorem users_far : 8560000 ≤ (location (90 - 2 * 40.76) (-73.96) - location (90 - 2 * 51.399) 10.536).len := by
  have hpi1 := Real.pi_gt_d2
  have hpi2 := Real.pi_lt_d2
  unfold Vec.len
  apply Real.le_sqrt_of_sq_le
  simp only [sub_x, sub_y, sub_z, location]
  generalize hA : ((90 : ℝ) - 2 * 40.76) * (Real.pi / 180) = A
  generalize hB : ((90 : ℝ) - 2 * 51.399) * (Real.pi / 180) = B
  generalize hα : (-73.96 : ℝ) * (Real.pi / 180) = α
  generalize hβ : (10.536 : ℝ) * (Real.pi / 180) = β
  have hA1 : 0 ≤ A := by rw [← hA]; norm_num; linarith
  have hA2 : A ≤ 1 := by rw [← hA]; norm_num; linarith
  have hB1 : B ≤ 0 := by rw [← hB]; norm_num; linarith
  have hB2 : -1 ≤ B := by rw [← hB]; norm_num; linarith
  have s1 : 0 ≤ sin A := sin_nonneg_of_nonneg_of_le_pi hA1 (by linarith)
  have s2 : sin B ≤ 0 := sin_nonpos_of_nonpos_of_neg_pi_le hB1 (by linarith)
  have c1 : 0 ≤ cos A := cos_nonneg_of_neg_pi_div_two_le_of_le (by linarith) (by linarith)
  have c2 : 0 ≤ cos B := cos_nonneg_of_neg_pi_div_two_le_of_le (by linarith) (by linarith)
  have c3 : cos A ≤ 1 := cos_le_one A
  have c4 : cos B ≤ 1 := cos_le_one B
  have hd : cos (β - α) ≤ 0.0965 := by
    have e : β - α = Real.pi / 2 - 5.504 * (Real.pi / 180) := by rw [← hα, ← hβ]; ring
    rw [e, cos_pi_div_two_sub]
    refine (sin_le (by positivity)).trans ?_
    norm_num
    linarith
  rw [cos_sub] at hd
  have q1 := sin_sq_add_cos_sq A
  have q2 := sin_sq_add_cos_sq B
  have q3 := sin_sq_add_cos_sq α
  have q4 := sin_sq_add_cos_sq β
  have k1 : sin A * sin B ≤ 0 := mul_nonpos_of_nonneg_of_nonpos s1 s2
  have k2 : cos A * cos B * (cos β * cos α + sin β * sin α) ≤ 0.0965 := by
    have h0 : 0 ≤ cos A * cos B := mul_nonneg c1 c2
    have h1 : cos A * cos B ≤ 1 := by nlinarith
    nlinarith
  have key : (6371000 * cos A * cos α - 6371000 * cos B * cos β) ^ 2 + (6371000 * cos A * sin α - 6371000 * cos B * sin β) ^ 2 +
      (6371000 * sin A - 6371000 * sin B) ^ 2 =
      6371000 ^ 2 * (2 - 2 * (sin A * sin B) - 2 * (cos A * cos B * (cos β * cos α + sin β * sin α))) := by
    have e1 : sin A ^ 2 = 1 - cos A ^ 2 := by linarith
    have e2 : sin B ^ 2 = 1 - cos B ^ 2 := by linarith
    have e3 : sin α ^ 2 = 1 - cos α ^ 2 := by linarith
    have e4 : sin β ^ 2 = 1 - cos β ^ 2 := by linarith
    ring_nf
    rw [e1, e2, e3, e4]
    ring
  simp only [← sq]
  rw [key]
  norm_num
  linarith

/-- **C112** for the users of the example programs without options: what one of them has at time `t0` is not passed up at the other one within 28
milliseconds, whatever protocols and applications do (with inter-satellite links or without). -/
theorem C112_default_users {isl : Bool} {junk : ℝ} {s : Sys} (h0 : Initial s) {X : ExampleNet}
    (h : exampleMain junk (defaultArgs isl) s = .ok X) {K : Sky} (hK : SkyOf (defaultArgs isl) X K)
    (hsp : K.speed = 299792458) (hof : ∀ x, 0 ≤ x → x * 1000000000 ≤ K.ofSeconds x + 1) {E : Env}
    {ops : List Op} (ht : ∀ op ∈ ops, PlainTraffic op) {s1 : Sys} (hx : exec (K.env E) X.build.sys ops = .ok s1)
    {u1 u2 : Nat} (hu : u1 = 632 + 400 ∧ u2 = 632 + 401 ∨ u1 = 632 + 401 ∧ u2 = 632 + 400) {Q : Bytes → Prop} {t0 : Time}
    (hc : CarriedFrom (K.env E) X.build.sys Q u1 t0 ops) {t : Time} {q : Bytes} {proto : UInt16} {sa : Mac48}
    (hr : (t, Ev.rxCallback u2 q proto sa) ∈ s1.log) (hQ : Q q) : t0 + 28000000 ≤ t := by
  have hp : (⟨"TelesatGateway", 105.9, 20, 189.3, 4.8, 0.36, 9857.1, 31.8⟩ : Preset) ∈ presets := by simp [presets]
  have hi := fun o ho => (default_installable isl o ho).1
  have hm : 2 * (places (defaultArgs isl).orbits).length + (defaultArgs isl).lonGws * (defaultArgs isl).latGws % 2 ^ 32 + 2 < 2 ^ 48 := by
    rw [default_count]; simp [defaultArgs]
  obtain ⟨Y, e, _, hgr, hg1, hg2, _, hut, hdev, _⟩ := C91_builds junk (a := defaultArgs isl) hp rfl hi hm s
  rw [h] at e
  obtain rfl := Outcome.ok.inj e
  have e400 : (defaultArgs isl).lonGws * (defaultArgs isl).latGws % 2 ^ 32 = 400 := rfl
  rw [e400] at hg1 hg2 hgr
  have halt : ∀ o ∈ (defaultArgs isl).orbits, o.alt ≤ 2000 := by
    intro o ho
    simp only [defaultArgs] at ho
    fin_cases ho <;> norm_num
  obtain ⟨T0, n, rs, rd, r1, r2, r3, r4, r5, r6⟩ := C112_example hp rfl hi hm halt h0 h hK hof (by rw [hsp]; norm_num) ht hx
    (src := u1) (by rw [default_count, hgr]; omega) hc hr hQ
  have hn : n = u2 := by
    have := (hdev u2 (by rw [hut, default_count, hgr]; exact List.mem_range.mpr (by omega))).1
    rw [r3] at this
    injection this
  subst hn
  have hg1 := hK.gnd _ _ hg1
  have hg2 := hK.gnd _ _ hg2
  rw [default_count] at hg1 hg2
  have hfar : 8560000 ≤ (rd t - rs T0).len := by
    have hf := users_far
    have hf' := hf
    rw [dist_comm'] at hf'
    rcases hu with ⟨rfl, rfl⟩ | ⟨rfl, rfl⟩
    · rw [hg1] at r4
      rw [hg2] at r5
      injection r4 with r4
      injection r5 with r5
      rw [← r4, ← r5]
      simp only [defaultArgs]
      first | exact hf | exact hf'
    · rw [hg2] at r4
      rw [hg1] at r5
      injection r4 with r4
      injection r5 with r5
      rw [← r4, ← r5]
      simp only [defaultArgs]
      first | exact hf | exact hf'
  have hprec : (defaultArgs isl).prec.toNat = 1000000000 := rfl
  rw [hsp, default_count, hgr, hprec] at r6
  have hb := hfar.trans r6
  have hlow : 0.028 ≤ seconds t - seconds T0 := by
    unfold seconds at hb ⊢
    push_cast at hb
    norm_num at hb ⊢
    linarith
  unfold seconds at hlow
  rw [← sub_div, le_div_iff₀ (by norm_num)] at hlow
  have : ((T0 + 28000000 : Nat) : ℝ) ≤ t := by push_cast; norm_num at hlow; linarith
  have : T0 + 28000000 ≤ t := by exact_mod_cast this
  exact (Nat.add_le_add_right r1 _).trans this

theorem up_mem {log : List (Time × Ev)} {t : Time} {d : DevId} {p : Bytes} {proto : UInt16} {sa : Mac48} (h : (t, d, p, proto, sa) ∈ allUps log) :
    (t, Ev.rxCallback d p proto sa) ∈ log := by
  obtain ⟨⟨u, e⟩, he, hh⟩ := List.mem_filterMap.mp h
  cases e with
  | rxCallback d' p' proto' sa' =>
    simp only [Option.some.injEq, Prod.mk.injEq] at hh
    obtain ⟨rfl, rfl, rfl, rfl, rfl⟩ := hh
    exact he
  | _ => cases hh

/-- The hypotheses are met: in the program without options a packet sent by one user at any moment and forwarded by the satellites is
passed up at the other user, not before 28 and not after 520 milliseconds. -/
theorem users_run (dt : Time) {q : Bytes} (hq : q.length ≤ 1492) : ∃ X K s2 ops, exampleMain 0 (defaultArgs true) Demo.sys = .ok X ∧ SkyOf (defaultArgs true) X K ∧ K.speed = 299792458 ∧
    (∀ x, 0 ≤ x → x * 1000000000 ≤ K.ofSeconds x + 1) ∧
    (∀ op ∈ ops, PlainTraffic op) ∧ exec (K.env Demo.env) X.build.sys ops = .ok s2 ∧
    CarriedFrom (K.env Demo.env) X.build.sys (fun p => p = q) (632 + 400) (X.build.sys.now + dt) ops ∧
    ∃ t' sa, (t', Ev.rxCallback (632 + 401) q 0x800 sa) ∈ s2.log ∧ X.build.sys.now + dt + 28000000 ≤ t' ∧
      seconds t' ≤ seconds (X.build.sys.now + dt) + 0.52 := by
  have hp : (⟨"TelesatGateway", 105.9, 20, 189.3, 4.8, 0.36, 9857.1, 31.8⟩ : Preset) ∈ presets := by simp [presets]
  have hi := fun o ho => (default_installable true o ho).1
  have hm : 2 * (places (defaultArgs true).orbits).length + (defaultArgs true).lonGws * (defaultArgs true).latGws % 2 ^ 32 + 2 < 2 ^ 48 := by
    rw [default_count]; simp [defaultArgs]
  obtain ⟨X, hX, _, hgr, _, _, _, hut, hdev, _⟩ := C91_builds 0 hp rfl hi hm Demo.sys
  obtain ⟨K, hK, hsp, hof, _⟩ := sky_exists (defaultArgs true) X
  obtain ⟨is, hr⟩ := (built_of hp rfl hi (by unfold satCount; exact hm) hX).run
  obtain ⟨s0, o, h0, hat, hex, _⟩ := C62_helper_network_is_history Demo.sys_initial hr
  have hat' : ∀ op ∈ o, ∃ d c, op = .attach d c := fun op hop => by
    obtain ⟨d, c, e, _⟩ := hat op hop
    exact ⟨d, c, e⟩
  obtain ⟨hpe, _⟩ := attached_only h0 hat' (hex (K.env Demo.env))
  have hw : exec (K.env Demo.env) X.build.sys [.wait dt] = .ok { X.build.sys with now := X.build.sys.now + dt } := by
    simp only [exec, step, hpe]
    rfl
  have hof1 : ∀ x, 0 ≤ x → (K.ofSeconds x : ℝ) ≤ x * 1000000000 + 1 := by
    intro x hx
    rw [hof]
    have := Nat.floor_le (a := x * 1000000000) (by positivity)
    linarith
  have hof2 : ∀ x, 0 ≤ x → x * 1000000000 ≤ K.ofSeconds x + 1 := by
    intro x hx
    rw [hof]
    exact (Nat.lt_floor_add_one _).le
  obtain ⟨R, m, n, s2, hR, r1, _, mid, t', sa, r3, r4, _⟩ := C108_default_users Demo.sys_initial hX hK (E := Demo.env) (fun _ _ _ _ => rfl) hsp hof1
    (ops := [.wait dt]) (by simp [PlainTraffic]) hw hpe (Or.inl ⟨rfl, rfl⟩) (q := q) hq (proto := 0x800)
  rw [Outcome.bind_eq_ok] at r1
  obtain ⟨s3, hs3, hrel⟩ := r1
  have hsrc : (X.build.sys.dev (632 + 400)).node = some (632 + 400) :=
    (hdev (632 + 400) (by
      have e : X.ground.length = 402 := hgr
      rw [hut, default_count, e]; exact List.mem_range.mpr (by norm_num))).1
  have hB : CarriedFrom (K.env Demo.env) X.build.sys (fun p => p = q) (632 + 400) (X.build.sys.now + dt)
      ([.wait dt] ++ [.send (632 + 400) q (.mac m) 0x800]) := by
    intro p1 sd q' dest pr p2 u he hu
    cases p1 with
    | nil => injection he with he _; cases he
    | cons y p1 =>
      injection he with e1 e2
      subst e1
      cases p1 with
      | nil =>
        injection e2 with e2 _
        injection e2 with e2 e3 e4 e5
        subst e2 e3 e4 e5
        rw [hw] at hu
        injection hu with hu
        subst hu
        exact ⟨hq, fun _ => Or.inl ⟨hsrc, le_rfl⟩⟩
      | cons z p1 =>
        injection e2 with _ e2
        exact absurd (congrArg List.length e2) (by simp)
  have h3 : exec (K.env Demo.env) X.build.sys ([.wait dt] ++ [.send (632 + 400) q (.mac m) 0x800]) = .ok s3 := by
    rw [exec_append, hw]
    simp only [Outcome.ok_bind, exec, step, hs3]
  have hR0 : PassesOn s0 R := by
    have same : ∀ d, (X.build.sys.dev d).node = (s0.dev d).node :=
      fun d => node_exec (hex (K.env Demo.env)) d
    intro a b c d e f g i hh
    have := hR a b c d e f g i hh
    simpa only [same] using this
  obtain ⟨more, m1, m2, m3⟩ := C112_forwarding h0 hR0 n (by rw [exec_append, hex]; exact h3)
    ((carried_after hat' (hex (K.env Demo.env))).mpr hB) hrel
  rw [List.append_assoc] at m1 m2
  rw [exec_append, hex] at m1
  have hcar := (carried_after hat' (hex (K.env Demo.env))).mp m2
  have hpl : ∀ op ∈ [Op.wait dt] ++ [.send (632 + 400) q (.mac m) 0x800] ++ more, PlainTraffic op := by
    intro op hop
    simp only [List.mem_append, List.mem_singleton] at hop
    rcases hop with (rfl | rfl) | hop
    · trivial
    · exact ⟨by simp, hq.trans (by norm_num)⟩
    · rcases m3 op hop with rfl | ⟨d, q, m, pr, rfl, hl⟩
      · trivial
      · exact ⟨by simp, hl.trans (by norm_num)⟩
  have hin : (t', Ev.rxCallback (632 + 401) q 0x800 sa) ∈ s2.log := by
    have : (t', 632 + 401, q, 0x800, sa) ∈ allUps s2.log := by rw [r3]; simp
    exact up_mem this
  exact ⟨X, K, s2, _, hX, hK, hsp, hof2, hpl, m1, hcar, t', sa, hin,
    C112_default_users Demo.sys_initial hX hK hsp hof2 hpl m1 (Or.inl ⟨rfl, rfl⟩) hcar hin rfl, r4⟩

example (dt : Time) := users_run dt (q := [1, 2, 3]) (by decide)

/-! ## The motion of the nodes cannot be left out -/

theorem plane_position (x : ℝ) (t : Time) : Orbit.position ⟨7371, Real.pi, 0, x⟩ t =
    ⟨-(7371000 * cos (swapRate * seconds t - x)), -(7371000 * sin (swapRate * seconds t - x)), 0⟩ := by
  have hpi := Real.pi_pos
  have e : swapRate * seconds t - x = Orbit.latitude ⟨7371, Real.pi, 0, x⟩ t - Orbit.progress ⟨7371, Real.pi, 0, x⟩ t := by
    unfold swapRate Orbit.latitude Orbit.progress earthRadKm seconds
    simp only
    rw [if_pos (show Real.pi > Real.pi / 2 by linarith), show swapOrbit.speed = Orbit.speed ⟨7371, Real.pi, 0, x⟩ from rfl]
    ring
  rw [e, position_eq, cos_sub, sin_sub]
  ext
  · simp [smul, axisU, axisW]; ring
  · simp [smul, axisU, axisW]; ring
  · simp [smul, axisU, axisW]

/-- One packet of the satellite behind to the one ahead. -/
def aheadRun : List Op := [.attach 0 1, .attach 1 1, .wait 1000, .send 1 [1] (.mac (Demo.mac 1)) 1, .run, .run]

theorem ahead_carried : CarriedFrom planeEnv Demo.sys (fun _ => True) 1 1000 aheadRun := by
  intro p1 sd q dest pr p2 u he hu
  have hp1 : p1 = [.attach 0 1, .attach 1 1, .wait 1000] := by
    rcases p1 with _ | ⟨a, _ | ⟨b, _ | ⟨c, _ | ⟨d, _ | ⟨e, _ | ⟨f, p1⟩⟩⟩⟩⟩⟩ <;> simp [aheadRun] at he ⊢
    exact ⟨he.1.symm, he.2.1.symm, he.2.2.1.symm⟩
  subst hp1
  simp only [aheadRun, List.cons_append, List.nil_append, List.cons.injEq, Op.send.injEq, true_and] at he
  obtain ⟨⟨rfl, rfl, _, _⟩, _⟩ := he
  refine ⟨by decide, fun _ => Or.inl ⟨rfl, ?_⟩⟩
  obtain ⟨v, hv, hn⟩ := Demo.exists_of_check (E := planeEnv) (s := Demo.sys) (ops := [.attach 0 1, .attach 1 1, .wait 1000])
    (test := fun s => decide (1000 ≤ s.now)) (by decide +kernel)
  rw [hu] at hv
  injection hv with hv
  subst hv
  simpa using hn

theorem ahead_ok : ∃ s, exec planeEnv Demo.sys aheadRun = .ok s ∧ (2459700, Ev.rxCallback 0 [1] 1 (Demo.mac 2)) ∈ s.log ∧
    ∀ t c f src dst tx del, (t, Ev.txrx c f src dst tx del) ∈ s.log → dst = 0 := by
  obtain ⟨s, hs, ht⟩ := Demo.exists_of_check (E := planeEnv) (s := Demo.sys) (ops := aheadRun)
    (test := fun s => decide ((2459700, Ev.rxCallback 0 [1] 1 (Demo.mac 2)) ∈ s.log) &&
      s.log.all fun e => match e.2 with
        | .txrx _ _ _ dst _ _ => decide (dst = 0)
        | _ => true) (by decide +kernel)
  simp only [Bool.and_eq_true, decide_eq_true_eq, List.all_eq_true] at ht
  refine ⟨s, hs, ht.1, fun t c f src dst tx del hm => ?_⟩
  simpa using ht.2 _ hm

/-- **The motion of the nodes cannot be left out of C112**: delays are computed from where both ends are when the transmission begins.  The
satellite ahead of the sender moves on while the packet is on its way, the packet does not follow a longer way for it: it comes
10 metres further than light does in that time, over a distance of 737 km. -/
theorem C112_outruns : ∃ (K : Sky) (E : Env) (oa ob : Orbit) (s : Sys) (t : Time), K.speed = 299792458 ∧
    (∀ x, 0 ≤ x → x * 1000000000 ≤ K.ofSeconds x + 1) ∧ K.pos 1 = some oa.position ∧ K.pos 0 = some ob.position ∧ SlowerThan 9700 oa.position ∧
    SlowerThan 9700 ob.position ∧ exec (K.env E) Demo.sys aheadRun = .ok s ∧ CarriedFrom (K.env E) Demo.sys (fun _ => True) 1 1000 aheadRun ∧
    (t, Ev.rxCallback 0 [1] 1 (Demo.mac 2)) ∈ s.log ∧
    (∀ T0 : Time, 1000 ≤ T0 → T0 ≤ t → 299792458 * (seconds t - seconds T0) + 10 < (ob.position t - oa.position T0).len) := by
  obtain ⟨s, hs, hin, _⟩ := ahead_ok
  refine ⟨planeSky id, { Demo.env with txTime := fun _ n => 1100 * n }, _, _, s, _, rfl, ?_, rfl, rfl, plane_slow _, plane_slow _,
    by rw [planeSky_env]; exact hs, by rw [planeSky_env]; exact ahead_carried, hin, ?_⟩
  · intro x hx
    exact (Nat.lt_floor_add_one _).le
  · intro T0 h1 h2
    obtain ⟨b1, b2⟩ := swapRate_bounds
    have hs : sin (arcsin (1 / 20)) = 1 / 20 := sin_arcsin (by norm_num) (by norm_num)
    have hc : (0.9 : ℝ) < cos (arcsin (1 / 20)) := by
      rw [cos_arcsin]
      exact Real.lt_sqrt_of_sq_lt (by norm_num)
    show _ < (Orbit.position ⟨7371, Real.pi, 0, if 0 % 2 = 0 then 0 else 2 * arcsin (1 / 20)⟩ _ -
      Orbit.position ⟨7371, Real.pi, 0, if 1 % 2 = 0 then 0 else 2 * arcsin (1 / 20)⟩ _).len
    rw [if_pos rfl, if_neg (by decide), plane_position, plane_position]
    obtain ⟨y, hy⟩ : ∃ y, y = seconds 2459700 - seconds T0 := ⟨_, rfl⟩
    have y1 : 0 ≤ y := by
      have : (T0 : ℝ) ≤ (2459700 : Nat) := by exact_mod_cast h2
      rw [hy]; unfold seconds
      push_cast at this ⊢
      linarith
    have y2 : y ≤ 0.0024587 := by
      have : ((1000 : Nat) : ℝ) ≤ T0 := by exact_mod_cast h1
      rw [hy]; unfold seconds
      push_cast at this ⊢
      linarith
    have ea : swapRate * seconds 2459700 - 0 = (swapRate * seconds T0 - 2 * arcsin (1 / 20)) + 2 * (arcsin (1 / 20) + swapRate * y / 2) := by
      rw [hy]; ring
    rw [ea, ← hy]
    generalize swapRate * seconds T0 - 2 * arcsin (1 / 20) = z
    have hε1 : 0 ≤ swapRate * y / 2 := by positivity
    have hε2 : swapRate * y / 2 ≤ 0.000002 := by nlinarith
    have hε3 : 0.0006 * y ≤ swapRate * y / 2 := by nlinarith
    generalize swapRate * y / 2 = ε at hε1 hε2 hε3 ⊢
    have hsε : 0.99 * ε ≤ sin ε := by
      rcases hε1.eq_or_lt with h | h
      · rw [← h]; simp
      · have := Real.sin_gt_sub_cube h
        nlinarith [mul_nonneg hε1 hε1]
    have hcε := Real.one_sub_sq_div_two_le_cos (x := ε)
    have hlow : 0.05 + 0.88 * ε ≤ sin (arcsin (1 / 20) + ε) := by
      rw [sin_add, hs]
      nlinarith
    refine lt_of_lt_of_le ?_ (Real.le_sqrt_of_sq_le (x := 2 * 7371000 * sin (arcsin (1 / 20) + ε)) ?_)
    · linarith
    · generalize arcsin (1 / 20) + ε = w
      simp only [sub_x, sub_y, sub_z]
      rw [cos_add, sin_add, cos_two_mul, sin_two_mul]
      have q1 := sin_sq_add_cos_sq w
      have q2 := sin_sq_add_cos_sq z
      have e1 : cos w ^ 2 = 1 - sin w ^ 2 := by linarith
      have e2 : cos z ^ 2 = 1 - sin z ^ 2 := by linarith
      have e4 : cos w ^ 4 = (1 - sin w ^ 2) ^ 2 := by rw [← e1]; ring
      ring_nf
      rw [e4, e2, e1]
      ring_nf
      exact le_rfl

/-- The hypotheses of `C112_exact` are met by the same run. -/
example : ∃ s, exec ((planeSky id).env { Demo.env with txTime := fun _ n => 1100 * n }) Demo.sys aheadRun = .ok s ∧
    CarriedFrom ((planeSky id).env { Demo.env with txTime := fun _ n => 1100 * n }) Demo.sys (fun _ => True) 1 1000 aheadRun ∧
    (∀ t c f src dst tx del, (t, Ev.txrx c f src dst tx del) ∈ s.log → ∀ n, (Demo.sys.dev dst).node = some n →
      @LT.lt Nat _ n 2 ∧ ∃ r, (planeSky id).pos n = some r ∧ SlowerThan 9700 r) ∧
    ∃ t sa, (t, Ev.rxCallback 0 [1] 1 sa) ∈ s.log := by
  obtain ⟨s, hs, hin, hd⟩ := ahead_ok
  refine ⟨s, by rw [planeSky_env]; exact hs, by rw [planeSky_env]; exact ahead_carried, ?_, _, _, hin⟩
  intro t c f src dst tx del hm n hn
  have := hd t c f src dst tx del hm
  subst this
  injection hn with hn
  subst hn
  exact ⟨by decide, _, rfl, plane_slow _⟩

end Verif
