import Verif.Lemmas.Relay
import Verif.Props.EndToEnd
/-!
# Packets forwarded from device to device (C92)
-/

namespace Verif
open Spec

theorem sendCalls_append (a b : List Op) : sendCalls (a ++ b) = sendCalls a ++ sendCalls b := by simp [sendCalls]

/-- What one event does while packets are forwarded. -/
theorem runK_plain {E : Env} {R : Forwarder} {s : Sys} :
    ∃ ops : List Op, runK E (forwardSink E R) s = exec E s (.run :: ops) ∧
      (∀ op ∈ ops, ∃ d p dest proto, op = .send d p dest proto) ∧
      ∀ s', runK E (forwardSink E R) s = .ok s' → ∃ ups, allUps s'.log = allUps s.log ++ ups ∧
        sendCalls ops = ups.filterMap fun e => R e.2.1 e.2.2.1 e.2.2.2.1 e.2.2.2.2 := by
  have hone : exec E s [.run] = run E s := by
    simp only [exec, step]
    cases run E s <;> rfl
  rw [runK_cases]
  cases hp : s.pending with
  | nil =>
    refine ⟨[], hone.symm, by simp, ?_⟩
    intro s' h
    unfold run at h
    rw [hp] at h
    injection h with h; subst h
    exact ⟨[], by simp, rfl⟩
  | cons q ps =>
    obtain ⟨t, a⟩ := q
    cases a with
    | txComplete d dest =>
      refine ⟨[], hone.symm, by simp, ?_⟩
      intro s' h
      simp only [run, hp, dispatch] at h
      exact ⟨[], by rw [List.append_nil, ups_complete h], rfl⟩
    | receive d f src rx =>
      simp only
      cases hr : run E s with
      | fail e =>
        exact ⟨[], by simp only [exec, step, hr]; rfl, by simp, fun s' h => by cases h⟩
      | ok u =>
        have hu := hr
        simp only [run, hp, dispatch] at hu
        have hup := ups_receive hu
        simp only [Outcome.ok_bind]
        unfold react
        split at hup
        · rename_i t' x p proto sa hl
          cases hR : R x p proto sa with
          | none =>
            refine ⟨[], by simp [exec, step, hr], by simp, ?_⟩
            intro s' h
            injection h with h; subst h
            exact ⟨_, hup, by simp [hR, sendCalls]⟩
          | some r =>
            obtain ⟨d', p', dest', proto'⟩ := r
            refine ⟨[.send d' p' dest' proto'], ?_, by simp, ?_⟩
            · simp only [exec, step, hr, Outcome.ok_bind]
              cases send E u d' p' dest' proto' <;> rfl
            · intro s' h
              refine ⟨_, by rw [ups_send h]; exact hup, ?_⟩
              simp [hR, sendCalls]
        · rename_i hl
          refine ⟨[], ?_, by simp, ?_⟩
          · simp only [exec, step, hr, Outcome.ok_bind]
          · intro s' h
            injection h with h; subst h
            exact ⟨[], by simpa using hup, rfl⟩

/-- **C92**: a program that forwards packets from the receive callbacks does what a program does that sends from outside: it
runs the same number of events, and its `Send` calls are those the forwarding decisions make for the callbacks called, in order. -/
theorem C92_forwarding_is_sending (E : Env) (R : Forwarder) (n : Nat) : ∀ s : Sys, ∃ ops, relay E R n s = exec E s ops ∧ SendRun n ops ∧
    ∀ s', relay E R n s = .ok s' → ∃ ups, allUps s'.log = allUps s.log ++ ups ∧
      sendCalls ops = ups.filterMap fun e => R e.2.1 e.2.2.1 e.2.2.2.1 e.2.2.2.2 := by
  induction n with
  | zero =>
    intro s
    exact ⟨[], rfl, ⟨by simp, rfl⟩, fun s' h => by injection h with h; subst h; exact ⟨[], by simp, rfl⟩⟩
  | succ n ih =>
    intro s
    obtain ⟨o1, h1, h2, h3⟩ := runK_plain (E := E) (R := R) (s := s)
    have hlen : o1.length = (sendCalls o1).length := by
      clear h1 h3
      induction o1 with
      | nil => rfl
      | cons op o1 ih =>
        obtain ⟨d, p, dest, proto, rfl⟩ := h2 op List.mem_cons_self
        have := ih fun op h => h2 op (List.mem_cons_of_mem _ h)
        simp only [sendCalls, List.filterMap_cons, List.length_cons] at this ⊢
        rw [this]
    have hrun : ∀ o : List Op, sendCalls (.run :: o) = sendCalls o := fun _ => rfl
    cases hr : runK E (forwardSink E R) s with
    | fail e =>
      refine ⟨.run :: o1 ++ List.replicate n .run, ?_, ⟨?_, ?_⟩, ?_⟩
      · rw [relay, hr, exec_append, ← h1, hr]; rfl
      · intro op hop
        rcases List.mem_append.mp hop with hop | hop
        · rcases List.mem_cons.mp hop with rfl | hop
          · exact Or.inl rfl
          · exact Or.inr (h2 op hop)
        · exact Or.inl (List.eq_of_mem_replicate hop)
      · have : sendCalls (List.replicate n .run) = [] := by simp [sendCalls]
        rw [sendCalls_append, this, List.append_nil, List.length_append, List.length_replicate, List.length_cons, hrun, hlen]
        omega
      · intro s' h; rw [relay, hr] at h; cases h
    | ok u =>
      obtain ⟨o2, g1, ⟨g2, g3⟩, g4⟩ := ih u
      refine ⟨.run :: o1 ++ o2, ?_, ⟨?_, ?_⟩, ?_⟩
      · rw [relay, hr, exec_append, ← h1, hr]; exact g1
      · intro op hop
        rcases List.mem_append.mp hop with hop | hop
        · rcases List.mem_cons.mp hop with rfl | hop
          · exact Or.inl rfl
          · exact Or.inr (h2 op hop)
        · exact g2 op hop
      · rw [sendCalls_append, List.length_append, List.length_append, List.length_cons, hrun, hlen, g3]
        omega
      · intro s' h
        rw [relay, hr, Outcome.ok_bind] at h
        obtain ⟨u1, e1, e2⟩ := h3 u hr
        obtain ⟨u2, e3, e4⟩ := g4 s' h
        exact ⟨u1 ++ u2, by rw [e3, e1, List.append_assoc], by
          rw [sendCalls_append, hrun, e2, e4, List.filterMap_append]⟩

/-- **C92**: in a network reached by proper use, forwarding to MAC addresses never fails, whatever the decisions. -/
theorem C92_never_fails {E : Env} {s0 s : Sys} {ops : List Op} (h0 : Initial s0) (hpr : ProperRun E s0 ops) (h : exec E s0 ops = .ok s)
    {R : Forwarder} (hR : ForwardsProperly R) (n : Nat) : ∃ s' ops', relay E R n s = .ok s' ∧ ProperRun E s ops' ∧ exec E s ops' = .ok s' := by
  have hf := reached_fit h0 hpr h
  clear h0 hpr h
  induction n generalizing s with
  | zero => exact ⟨s, [], rfl, by intro o1 op o2 s1 ho; simp at ho, rfl⟩
  | succ n ih =>
    have hprun : Proper s .run := ⟨True.intro, True.intro⟩
    obtain ⟨u, hu⟩ := fit_progress hf hprun
    have hfu := fit_step hf hprun hu
    have hone : ProperRun E s [.run] := by
      intro o1 op o2 s1 ho _
      have : op = .run := by
        have : op ∈ [Op.run] := by rw [ho]; simp
        simpa using this
      subst this
      exact ⟨True.intro, True.intro⟩
    simp only [step] at hu
    have key : ∃ u' o, runK E (forwardSink E R) s = .ok u' ∧ Fit E u' ∧ ProperRun E s o ∧ exec E s o = .ok u' := by
      rw [runK_cases]
      have plain : ∃ u' o, run E s = .ok u' ∧ Fit E u' ∧ ProperRun E s o ∧ exec E s o = .ok u' :=
        ⟨u, [.run], hu, hfu, hone, by simp [exec, step, hu]⟩
      split
      · rw [hu, Outcome.ok_bind]
        unfold react
        split
        · rename_i t x p proto sa _
          cases hRx : R x p proto sa with
          | none => exact ⟨u, [.run], rfl, hfu, hone, by simp [exec, step, hu]⟩
          | some r =>
            obtain ⟨d', p', dest', proto'⟩ := r
            have hprop : Proper u (.send d' p' dest' proto') := ⟨True.intro, hR _ _ _ _ _ _ _ _ hRx⟩
            obtain ⟨v, hv⟩ := fit_progress hfu hprop
            refine ⟨v, [.run, .send d' p' dest' proto'], by simpa only [step] using hv, fit_step hfu hprop hv, ?_,
              by simp only [exec, step, hu, Outcome.ok_bind]; simp only [step] at hv; rw [hv]; rfl⟩
            have : ProperRun E s ([.run] ++ [.send d' p' dest' proto']) :=
              properRun_append hone (by simp [exec, step, hu] : exec E s [.run] = .ok u) (by
                intro o1 op o2 s1 ho hex
                cases o1 with
                | nil =>
                  simp only [List.nil_append, List.cons.injEq] at ho
                  obtain ⟨rfl, _⟩ := ho
                  have : u = s1 := by simpa [exec] using hex
                  exact this ▸ hprop
                | cons a o1 => simp at ho)
            exact this
        · exact ⟨u, [.run], rfl, hfu, hone, by simp [exec, step, hu]⟩
      · exact plain
    obtain ⟨u', o, k1, k2, k3, k4⟩ := key
    obtain ⟨s', o', r1, r2, r3⟩ := ih k2
    exact ⟨s', o ++ o', by rw [relay, k1, Outcome.ok_bind, r1], properRun_append k3 k4 r2, by rw [exec_append, k4]; exact r3⟩

/-- **C92**: in a network reached by proper use, with nothing going on, a packet is sent on its way along a route whose hops can be made
when their times come.  If the forwarding decisions lead along the route, all events run without failure, and the receive
callbacks called are exactly those at the ends of the hops, in order, each as late as the delays of the hops add up to. -/
theorem C92_route {E : Env} (hE : ErrorFree E) {s0 s : Sys} {ops : List Op} (h0 : Initial s0) (hpr : ProperRun E s0 ops)
    (h : exec E s0 ops = .ok s) (hp : s.pending = []) {R : Forwarder} {a : Hop} {hs : List Hop} (hr : RouteOk E s s.now (a :: hs))
    (hR : Follows s R (a :: hs)) :
    ∃ n s', (send E s a.src a.packet (.mac (s.dev a.dst).addr) a.proto >>= relay E R n) = .ok s' ∧ s'.pending = [] ∧
      allUps s'.log = allUps s.log ++ arrivals s s.now (a :: hs) := by
  have hf := reached_fit h0 hpr h
  have hidle : ∀ x, (s.dev x).busy = false ∧ (s.dev x).queue = [] := by
    intro x
    have hb : (s.dev x).busy = false := by
      cases hbz : (s.dev x).busy with
      | false => rfl
      | true =>
        obtain ⟨f, t, dest, _, ht⟩ := (hf.inv.dev x).busy hbz
        rw [hp] at ht; cases ht
    exact ⟨hb, ((hf.inv.dev x).ready hb).2.1⟩
  have hcalm : Calm E s s := ⟨hf, fun _ => SameCfg.refl _, rfl, fun x => (hidle x).2⟩
  obtain ⟨h1, h2⟩ := hr
  have h2' := List.pairwise_cons.mp (show List.Pairwise _ ((s.now, a) :: timed (s.now + a.delay) hs) from h2)
  obtain ⟨u, live, dead, g1, g2, g3, g4, g5, g6, g7⟩ := hop_send hf hcalm (h1 (s.now, a) List.mem_cons_self) (hidle a.src).1
  rw [hp, List.append_nil] at g5
  obtain ⟨n, s', k1, k2, k3⟩ := on_way (R := R) hE hf hs s.now a live dead u ⟨g2, g5, g6, fun q hq => (g7 q hq).1,
    fun e he => h1 e (List.mem_cons_of_mem _ he), h2'.2, (by
      intro q hq d dest hact e he hsrc
      rcases List.mem_cons.mp (g5.mem_iff.mp hq) with hq | hq
      · obtain ⟨_, f', pw', ha', _⟩ := g6
        rw [← hq, hact] at ha'
        cases ha'
      · obtain ⟨hd, ht⟩ := (g7 q hq).2 d dest hact
        rw [ht]
        exact h2'.1 e he (by rw [hsrc, hd])), follows_leads hR⟩ hR
  exact ⟨n, s', by rw [g1, Outcome.ok_bind, k1], k2, by rw [k3, g4]⟩

theorem timed_src (hs : List Hop) : ∀ t, (timed t hs).map (fun e => e.2.src) = hs.map Hop.src := by
  induction hs with
  | nil => intro t; rfl
  | cons h hs ih => intro t; simp [timed, ih]

/-- **C92**, routes on which no device sends twice: only the hops matter. -/
theorem C92_simple_route {E : Env} (hE : ErrorFree E) {s0 s : Sys} {ops : List Op} (h0 : Initial s0) (hpr : ProperRun E s0 ops)
    (h : exec E s0 ops = .ok s) (hp : s.pending = []) {R : Forwarder} {a : Hop} {hs : List Hop}
    (hr : ∀ e ∈ timed s.now (a :: hs), HopOk E s e.1 e.2) (hnd : ((a :: hs).map Hop.src).Nodup) (hR : Follows s R (a :: hs)) :
    ∃ n s', (send E s a.src a.packet (.mac (s.dev a.dst).addr) a.proto >>= relay E R n) = .ok s' ∧ s'.pending = [] ∧
      allUps s'.log = allUps s.log ++ arrivals s s.now (a :: hs) := by
  refine C92_route hE h0 hpr h hp ⟨hr, ?_⟩ hR
  rw [← timed_src _ s.now, List.Nodup, List.pairwise_map] at hnd
  exact hnd.imp fun hne he => absurd he hne

/-- **C92**: the packet gets to the end of the route when the delays of all hops have passed. -/
theorem C92_latency (s : Sys) (t : Time) (a : Hop) (hs : List Hop) :
    ((arrivals s t (a :: hs)).getLast?.map fun e => (e.1, e.2.1, e.2.2.1)) =
      (a :: hs).getLast?.map fun z => (t + ((a :: hs).map Hop.delay).sum, z.dst, z.packet) := by
  induction hs generalizing t a with
  | nil => simp [arrivals, timed]
  | cons b hs ih =>
    have := ih (t + a.delay) b
    simp only [arrivals, timed, List.map_cons, List.getLast?_cons_cons, List.sum_cons] at this ⊢
    rw [this]
    simp only [Nat.add_assoc]

/-! ## Examples -/

namespace Demo

/-- Devices 0 and 1 send packets back and forth as often as the first byte says; device 1 hands packets without one to device 3,
which sends them to device 5. -/
def bounce : Forwarder := fun x p proto _ =>
  match p with
  | [] => if x = 1 then some (3, [], .mac (mac 6), proto) else none
  | n :: r => if n = 0 then none else some (x, (n - 1) :: r, .mac (mac (if x = 0 then 2 else 1)), proto)

end Demo

/-- The hypotheses of `C92_route` are met: a packet goes from device 0 to device 1, back and there again. -/
example : ∃ s, exec Demo.env Demo.sys [.attach 0 0, .attach 1 0] = .ok s ∧ ErrorFree Demo.env ∧ Initial Demo.sys ∧
    ProperRun Demo.env Demo.sys [.attach 0 0, .attach 1 0] ∧ s.pending = [] ∧
    RouteOk Demo.env s s.now [⟨0, 1, [2], 2048, 64⟩, ⟨1, 0, [1], 2048, 64⟩, ⟨0, 1, [0], 2048, 64⟩] ∧
    Follows s Demo.bounce [⟨0, 1, [2], 2048, 64⟩, ⟨1, 0, [1], 2048, 64⟩, ⟨0, 1, [0], 2048, 64⟩] := by
  refine ⟨_, rfl, fun _ _ _ _ => rfl, Demo.sys_initial, demo_properRun _ ?_, rfl, ⟨?_, ?_⟩, rfl, rfl, rfl⟩
  · intro op hop
    simp only [List.mem_cons, List.not_mem_nil, or_false] at hop
    rcases hop with rfl | rfl <;> exact ⟨_, _, rfl, by decide⟩
  · intro e he
    simp only [timed, List.mem_cons, List.not_mem_nil, or_false] at he
    rcases he with rfl | rfl | rfl <;>
      exact ⟨by decide, rfl, by decide, by decide, 0, rfl, by decide, fun _ => ⟨by decide, by decide, by decide⟩, (fun h => by cases h), 1,
        rfl, by decide +kernel⟩
  · simp only [timed, List.pairwise_cons, List.mem_cons, List.not_mem_nil, or_false]
    refine ⟨?_, ?_, ?_, List.Pairwise.nil⟩
    · rintro e (rfl | rfl) h
      · cases h
      · decide
    · rintro e rfl h
      cases h
    · rintro e ⟨⟩

/-- The hypotheses of `C92_simple_route` are met: a packet goes from ground device 0 to satellite device 1, whose node hands it to device 3,
which sends it over an inter-satellite channel to device 5. -/
example : ∃ s, exec Demo.env Demo.sys [.attach 0 0, .attach 1 0, .attach 3 1, .attach 5 1] = .ok s ∧
    ProperRun Demo.env Demo.sys [.attach 0 0, .attach 1 0, .attach 3 1, .attach 5 1] ∧ s.pending = [] ∧
    (∀ e ∈ timed s.now [⟨0, 1, [], 2048, 64⟩, ⟨3, 5, [], 2048, 64⟩], HopOk Demo.env s e.1 e.2) ∧
    ([⟨0, 1, [], 2048, 64⟩, ⟨3, 5, [], 2048, 64⟩].map Hop.src).Nodup ∧
    Follows s Demo.bounce [⟨0, 1, [], 2048, 64⟩, ⟨3, 5, [], 2048, 64⟩] := by
  refine ⟨_, rfl, demo_properRun _ ?_, rfl, ?_, by decide, rfl, rfl⟩
  · intro op hop
    simp only [List.mem_cons, List.not_mem_nil, or_false] at hop
    rcases hop with rfl | rfl | rfl | rfl <;> exact ⟨_, _, rfl, by decide⟩
  · intro e he
    simp only [timed, List.mem_cons, List.not_mem_nil, or_false] at he
    rcases he with rfl | rfl
    · exact ⟨by decide, rfl, by decide, by decide, 0, rfl, by decide, fun _ => ⟨by decide, by decide, by decide⟩, (fun h => by cases h), 1,
        rfl, by decide +kernel⟩
    · exact ⟨by decide, rfl, by decide, by decide, 1, rfl, by decide, (fun h => by cases h), fun _ => by decide, 1, rfl, by decide +kernel⟩

/-- The hypothesis of `C92_never_fails` about the decisions is met. -/
example : ForwardsProperly (fun x p proto _ => if p.length ≤ 100 then some (x + 1, p, .mac (Demo.mac 1), proto) else none) := by
  intro x p proto sa d p' dest proto' h
  simp only at h
  split at h
  · injection h with h
    simp only [Prod.mk.injEq] at h
    obtain ⟨_, rfl, rfl, _⟩ := h
    exact ⟨by simp, by omega⟩
  · cases h

end Verif
