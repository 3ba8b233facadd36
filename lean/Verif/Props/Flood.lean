import Verif.Lemmas.Endless
import Verif.Lemmas.Flood
import Verif.Props.Relay
/-! # C98: forwarding with a hop limit always ends; without one a packet may circulate for ever -/

namespace Verif
open Spec

/-- **C98**: in a network reached by proper use, with nothing going on, a packet is sent.  Code that sends on at most `B` packets for one
it gets, each with fewer hops left, makes no call fail, and all activity is over after at most `floodCost N B (hops p)` events, where
`N` is the number of `Attach` calls that were made. -/
theorem C98_flood_ends {E : Env} {s0 s : Sys} {ops : List Op} (h0 : Initial s0) (hpr : ProperRun E s0 ops) (h : exec E s0 ops = .ok s)
    (hp : s.pending = []) {hops : Bytes → Nat} {B : Nat} {R : Flooder} (hR : HopLimited hops B R) {p : Bytes} (hlen : p.length ≤ 1492)
    {m : Mac48} (d : DevId) (proto : UInt16) :
    ∃ n s', n ≤ floodCost (attachCalls ops) B (hops p) ∧ (send E s d p (.mac m) proto >>= flood E R n) = .ok s' ∧ s'.pending = [] := by
  have hf := reached_fit h0 hpr h
  have hN : Bounded (attachCalls ops) s := by
    have := bounded_attaches (bounded_initial h0) h
    rwa [Nat.zero_add] at this
  obtain ⟨u, ops', h1, h2, h3, h4, _⟩ := potential_sendAll (hops := hops) (B := B) (D := floodCost (attachCalls ops) B (hops p))
    [(d, p, .mac m, proto)] hf hN (by
      intro e he
      rw [List.mem_singleton] at he
      subst he
      exact ⟨Nat.le_refl _, hlen, by simp⟩)
  have h0' : potential hops (attachCalls ops) B E s = 0 := by unfold potential; rw [hp]; rfl
  rw [h0', List.length_singleton, Nat.one_mul, Nat.zero_add] at h4
  obtain ⟨k, s', _, g1, g2, g3, _⟩ := flood_ends hR _ h2 h3 h4
  refine ⟨k, s', g1, ?_, g3⟩
  simp only [sendAll] at h1
  rw [Outcome.bind_eq_ok] at h1
  obtain ⟨v, h5, h6⟩ := h1
  injection h6 with h6
  subst h6
  rw [h5, Outcome.ok_bind, g2]

/-- **C98**: from any state reached by proper use, whatever is under way, all activity comes to an end under such code, no call fails,
and the network is in a state it could have come to by calls of `Send` and events alone. -/
theorem C98_settles {E : Env} {s0 s : Sys} {ops : List Op} (h0 : Initial s0) (hpr : ProperRun E s0 ops) (h : exec E s0 ops = .ok s)
    {hops : Bytes → Nat} {B : Nat} {R : Flooder} (hR : HopLimited hops B R) :
    ∃ n s' ops', flood E R n s = .ok s' ∧ s'.pending = [] ∧
      (∀ op ∈ ops', op = .run ∨ ∃ d p dest proto, op = .send d p dest proto) ∧ ProperRun E s ops' ∧ exec E s ops' = .ok s' := by
  obtain ⟨n, s', ops', _, h1⟩ := flood_ends (N := attachCalls ops) (hops := hops) hR _ (reached_fit h0 hpr h) (by
    have := bounded_attaches (bounded_initial h0) h
    rwa [Nat.zero_add] at this) (Nat.le_refl _)
  exact ⟨n, s', ops', h1⟩

theorem sendAll_exec {E : Env} (l : List (DevId × Bytes × Addr × UInt16)) (t : Sys) :
    sendAll E l t = exec E t (l.map fun c => .send c.1 c.2.1 c.2.2.1 c.2.2.2) := by
  induction l generalizing t with
  | nil => rfl
  | cons c l ih =>
    obtain ⟨d, p, dest, proto⟩ := c
    show (send E t d p dest proto >>= sendAll E l) = (send E t d p dest proto >>= fun u => exec E u _)
    congr 1
    funext u
    exact ih u

/-- **C98**: code above that answers packets is the same as a program that, after every event, makes the calls decided on, all of them and in
order. -/
theorem C98_answers (E : Env) (R : Flooder) (n : Nat) (s : Sys) :
    flood E R (n + 1) s = (step E s .run >>= fun t => exec E t (answers R s t) >>= flood E R n) := by
  show (runK E (floodSink E R) s >>= flood E R n) = (run E s >>= fun t => exec E t (answers R s t) >>= flood E R n)
  have quiet : ∀ {t : Sys}, allUps t.log = allUps s.log → exec E t (answers R s t) = .ok t := fun {t} h => by
    unfold answers; rw [h, List.drop_length]; rfl
  rw [runK_flood]
  rcases hp : s.pending with _ | ⟨⟨tm, act⟩, ps⟩
  · simp only
    have hr : run E s = .ok s := by unfold run; rw [hp]
    rw [hr, Outcome.ok_bind, Outcome.ok_bind, quiet rfl, Outcome.ok_bind]
  · cases act with
    | txComplete d dest =>
      simp only
      cases hr : run E s with
      | fail e => rfl
      | ok t =>
        rw [Outcome.ok_bind, Outcome.ok_bind, quiet, Outcome.ok_bind]
        unfold run at hr
        rw [hp] at hr
        have hu := ups_complete hr
        exact hu
    | receive dst f src rx =>
      simp only
      cases hr : run E s with
      | fail e => rfl
      | ok t =>
        rw [Outcome.ok_bind, Outcome.ok_bind]
        congr 1
        unfold run at hr
        rw [hp] at hr
        have hu := ups_receive hr
        simp only at hu
        unfold floodReact answers
        rw [hu, List.drop_left]
        cases t.log.getLast? with
        | none => rfl
        | some e =>
          obtain ⟨tm', ev⟩ := e
          cases ev <;> try rfl
          rw [List.flatMap_singleton]
          exact sendAll_exec _ _

theorem sendAll_option {E : Env} {o : Option (DevId × Bytes × Addr × UInt16)} {t : Sys} :
    sendAll E o.toList t = match o with
      | some (d, p', dest, proto') => send E t d p' dest proto'
      | none => .ok t := by
  cases o with
  | none => rfl
  | some e =>
    obtain ⟨d, p, dest, proto⟩ := e
    simp only [Option.toList, sendAll]
    cases send E t d p dest proto <;> rfl

/-- **C98**: forwarding of single packets (`relay`) is the case of at most one packet sent on for one received. -/
theorem C98_relay_is_flood (E : Env) (R : Forwarder) (n : Nat) (s : Sys) :
    flood E (fun _ x p proto sa => (R x p proto sa).toList) n s = relay E R n s := by
  have hk : floodSink E (fun _ x p proto sa => (R x p proto sa).toList) = forwardSink E R := by
    funext h t
    cases h <;> try rfl
    simp only [floodSink, forwardSink, sendAll_option]
    cases t.log.getLast? with
    | none => rfl
    | some e =>
      obtain ⟨τ, v⟩ := e
      cases v <;> rfl
  induction n generalizing s with
  | zero => rfl
  | succ n ih =>
    rw [flood, relay, hk]
    generalize runK E (forwardSink E R) s = o
    cases o with
    | fail e => exact Eq.trans (b := Outcome.fail e) rfl rfl
    | ok t => rw [Outcome.ok_bind, Outcome.ok_bind]; exact ih t

theorem relay_more {E : Env} {R : Forwarder} {s s' : Sys} {n k : Nat} (hle : n ≤ k) (h : relay E R k s = .ok s') :
    ∃ t, relay E R n s = .ok t ∧ relay E R (k - n) t = .ok s' := by
  obtain ⟨m, rfl⟩ := Nat.exists_eq_add_of_le hle
  rw [relay_add, Outcome.bind_eq_ok] at h
  obtain ⟨t, h1, h2⟩ := h
  exact ⟨t, h1, by rw [Nat.add_sub_cancel_left]; exact h2⟩

/-- **C98**: along an endless route the packet goes on for ever: the callbacks at the ends of all its hops are called one after the other
and nothing else is. -/
theorem C98_endless_arrivals {E : Env} (hE : ErrorFree E) {s0 s : Sys} {ops : List Op} (h0 : Initial s0) (hpr : ProperRun E s0 ops)
    (h : exec E s0 ops = .ok s) (hp : s.pending = []) {R : Forwarder} {route : Nat → Hop} (hr : Endless E s R route) (i : Nat) :
    ∃ n s', i ≤ n ∧ (send E s (route 0).src (route 0).packet (.mac (s.dev (route 0).dst).addr) (route 0).proto >>= relay E R n) = .ok s' ∧
      s'.pending ≠ [] ∧ allUps s'.log = allUps s.log ++ (List.range i).map fun j =>
        (startOf s.now route (j + 1), (route j).dst, (route j).packet, (route j).proto, (s.dev (route j).src).addr) := by
  have hf := reached_fit h0 hpr h
  have hidle : ∀ x, (s.dev x).busy = false ∧ (s.dev x).queue = [] := by
    intro x
    have hb : (s.dev x).busy = false := by
      cases hbz : (s.dev x).busy with
      | false => rfl
      | true =>
        obtain ⟨f, t, dest, _, ht⟩ := (hf.inv.dev x).busy hbz
        rw [hp] at ht; cases ht
    exact ⟨hb, ((hf.inv.dev x).ready hb).2.1⟩
  have hcalm : Calm E s s := ⟨hf, fun _ => SameCfg.refl _, rfl, fun x => (hidle x).2⟩
  obtain ⟨u, live, dead, g1, g2, g3, g4, g5, g6, g7⟩ := hop_send hf hcalm (hr.hop 0) (hidle (route 0).src).1
  rw [hp, List.append_nil] at g5
  have hap := apart_segment hr (i + 1) 0
  have h2' := List.pairwise_cons.mp
    (show List.Pairwise _ ((s.now, route 0) :: timed (startOf s.now route 1) (segment route 1 i)) from hap)
  have w : OnWay E s R (startOf s.now route 0) (route 0) (segment route (0 + 1) i) live dead u :=
    ⟨g2, g5, g6, fun q hq => (g7 q hq).1, hops_segment hr i 1, h2'.2, (by
      intro q hq d dest hact e he hsrc
      rcases List.mem_cons.mp (g5.mem_iff.mp hq) with hq | hq
      · obtain ⟨_, f', pw', ha', _⟩ := g6
        rw [← hq, hact] at ha'
        cases ha'
      · obtain ⟨hd, ht⟩ := (g7 q hq).2 d dest hact
        rw [ht]
        exact h2'.1 e he (by rw [hsrc, hd])), leads_segment hr i 0⟩
  obtain ⟨k, u', live', dead', k1, k2, k3, k4⟩ := on_way_along hE hf i 0 live dead u w
  refine ⟨k, u', k1, by rw [g1, Outcome.ok_bind, k2], ?_, ?_⟩
  · intro hh
    have := k3.pend.length_eq
    rw [hh] at this
    simp at this
  · rw [k4, g4]
    congr 1
    unfold arrivals
    rw [timed_segment, List.map_map, List.range_eq_range']
    rfl

/-- **C98** (why a hop limit is needed): on an endless route the activity never ends: however many events are run, none fails and there is
another one pending. -/
theorem C98_never_ends {E : Env} (hE : ErrorFree E) {s0 s : Sys} {ops : List Op} (h0 : Initial s0) (hpr : ProperRun E s0 ops)
    (h : exec E s0 ops = .ok s) (hp : s.pending = []) {R : Forwarder} {route : Nat → Hop} (hr : Endless E s R route) (n : Nat) :
    ∃ s', (send E s (route 0).src (route 0).packet (.mac (s.dev (route 0).dst).addr) (route 0).proto >>= relay E R n) = .ok s' ∧
      s'.pending ≠ [] := by
  obtain ⟨k, s', h1, h2, h3, _⟩ := C98_endless_arrivals hE h0 hpr h hp hr n
  rw [Outcome.bind_eq_ok] at h2
  obtain ⟨u, h4, h5⟩ := h2
  obtain ⟨t, h6, h7⟩ := relay_more h1 h5
  refine ⟨t, by rw [h4, Outcome.ok_bind, h6], fun ht => ?_⟩
  rw [relay_idle ht] at h7
  injection h7 with h7
  exact h3 (h7 ▸ ht)

/-- **C98**: two devices that send a packet back to each other do so for ever, if the hops can be made at any time and each is done sending
when the packet is back. -/
theorem C98_ping_pong {E : Env} (hE : ErrorFree E) {s0 s : Sys} {ops : List Op} (h0 : Initial s0) (hpr : ProperRun E s0 ops)
    (h : exec E s0 ops = .ok s) (hp : s.pending = []) {R : Forwarder} {a b : Hop} (hne : a.src ≠ b.src)
    (ha : ∀ t, HopOk E s t a) (hb : ∀ t, HopOk E s t b)
    (hta : a.occupies E s < a.delay + b.delay) (htb : b.occupies E s < a.delay + b.delay)
    (hab : R a.dst a.packet a.proto (s.dev a.src).addr = some (b.src, b.packet, .mac (s.dev b.dst).addr, b.proto))
    (hba : R b.dst b.packet b.proto (s.dev b.src).addr = some (a.src, a.packet, .mac (s.dev a.dst).addr, a.proto)) (n : Nat) :
    ∃ s', (send E s a.src a.packet (.mac (s.dev a.dst).addr) a.proto >>= relay E R n) = .ok s' ∧ s'.pending ≠ [] := by
  refine C98_never_ends hE h0 hpr h hp (route := turns a b) ⟨?_, ?_, ?_⟩ n
  · intro i
    rcases Nat.mod_two_eq_zero_or_one i with hi | hi
    · have : (i + 1) % 2 ≠ 0 := by omega
      simp only [turns, hi, this, if_true, if_false]
      exact hab
    · have : (i + 1) % 2 = 0 := by omega
      simp only [turns, hi, this, if_true]
      exact hba
  · intro i
    by_cases hi : i % 2 = 0
    · simp only [turns, hi, if_true]; exact ha _
    · simp only [turns, hi, if_false]; exact hb _
  · intro i j hij hsrc
    have hmod : i % 2 = j % 2 := by
      by_cases hi : i % 2 = 0 <;> by_cases hj : j % 2 = 0
      · omega
      · simp only [turns, hi, hj, if_true, if_false] at hsrc; exact absurd hsrc hne
      · simp only [turns, hi, hj, if_true, if_false] at hsrc; exact absurd hsrc.symm hne
      · omega
    have h2 : startOf s.now (turns a b) (i + 2) = startOf s.now (turns a b) i + (a.delay + b.delay) := by
      simp only [startOf]
      by_cases hi : i % 2 = 0
      · have : (i + 1) % 2 ≠ 0 := by omega
        simp only [turns, hi, this, if_true, if_false]; omega
      · have : (i + 1) % 2 = 0 := by omega
        simp only [turns, hi, this, if_true, if_false]; omega
    have h3 := startOf_le (t := s.now) (route := turns a b) (show i + 2 ≤ j by omega)
    have h4 : (turns a b i).occupies E s < a.delay + b.delay := by
      by_cases hi : i % 2 = 0
      · simpa only [turns, hi, if_true] using hta
      · simpa only [turns, hi, if_false] using htb
    omega

/-! ## Examples -/

namespace Demo

/-- The first byte of a packet counts the hops it may still make. -/
def hopByte : Bytes → Nat
  | [] => 0
  | n :: _ => n.toNat

/-- Flooding: a packet with hops left is sent to everybody by the device that got it and by the next one. -/
def spread : Flooder := fun _ x p proto _ =>
  match p with
  | [] => []
  | n :: r => if n = 0 ∨ 1000 < r.length then [] else
      [(x, (n - 1) :: r, .mac Mac48.broadcast, proto), (x + 1, (n - 1) :: r, .mac Mac48.broadcast, proto)]

/-- A program that sends every packet back where it came from. -/
def echo : Forwarder := fun x p proto sa => some (x, p, .mac sa, proto)

theorem spread_limited : HopLimited hopByte 2 spread := by
  intro s x p proto sa
  cases p with
  | nil => exact ⟨by simp [spread], by simp [spread]⟩
  | cons n r =>
    simp only [spread]
    split
    · simp
    · rename_i h
      have hn : n ≠ 0 := fun hh => h (Or.inl hh)
      have hlt : (n - 1).toNat < n.toNat := by
        have h1 : n.toNat ≠ 0 := fun hh => hn (UInt8.toNat_inj.mp (by simpa using hh))
        have h2 : (1 : UInt8) ≤ n := by rw [UInt8.le_iff_toNat_le]; simp; omega
        rw [UInt8.toNat_sub_of_le _ _ h2]
        simp; omega
      have hr : r.length ≤ 1000 := by omega
      refine ⟨by simp, ?_⟩
      intro e he
      simp only [List.mem_cons, List.not_mem_nil, or_false] at he
      rcases he with rfl | rfl <;> exact ⟨hlt, by simp; omega, by simp⟩

end Demo

/-- The hypotheses of `C98_flood_ends` are met: two ground and two satellite devices; a packet with three hops is spread.  Four receptions
per round and up to `1 + 4 * (1 + 2 * …)` events are allowed by the theorem; all is over after fewer. -/
example : ∃ s, exec Demo.env Demo.sys [.attach 0 0, .attach 1 0, .attach 2 0, .attach 3 0] = .ok s ∧ Initial Demo.sys ∧
    ProperRun Demo.env Demo.sys [.attach 0 0, .attach 1 0, .attach 2 0, .attach 3 0] ∧ s.pending = [] ∧
    HopLimited Demo.hopByte 2 Demo.spread ∧ floodCost (attachCalls [.attach 0 0, .attach 1 0, .attach 2 0, .attach 3 0]) 2 (Demo.hopByte [2]) = 365 := by
  refine ⟨_, rfl, Demo.sys_initial, demo_properRun _ ?_, rfl, Demo.spread_limited, by decide⟩
  intro op hop
  simp only [List.mem_cons, List.not_mem_nil, or_false] at hop
  rcases hop with rfl | rfl | rfl | rfl <;> exact ⟨_, _, rfl, by decide⟩

/-- The hypotheses of `C98_settles` are met in the middle of such activity. -/
example : ∃ s, exec Demo.env Demo.sys [.attach 0 0, .attach 1 0, .send 0 [2] (.mac Mac48.broadcast) 2048] = .ok s ∧ s.pending ≠ [] :=
  ⟨_, rfl, by decide +kernel⟩

/-- The hypotheses of `C98_ping_pong` are met by a program that sends every packet back. -/
example : ∃ s, exec Demo.env Demo.sys [.attach 0 0, .attach 1 0] = .ok s ∧ ErrorFree Demo.env ∧ Initial Demo.sys ∧
    ProperRun Demo.env Demo.sys [.attach 0 0, .attach 1 0] ∧ s.pending = [] ∧
    (∀ t, HopOk Demo.env s t ⟨0, 1, [2], 2048, 64⟩) ∧ (∀ t, HopOk Demo.env s t ⟨1, 0, [2], 2048, 64⟩) ∧
    Hop.occupies Demo.env s ⟨0, 1, [2], 2048, 64⟩ < 64 + 64 ∧ Hop.occupies Demo.env s ⟨1, 0, [2], 2048, 64⟩ < 64 + 64 ∧
    Demo.echo 1 [2] 2048 (s.dev 0).addr = some (1, [2], .mac (s.dev 0).addr, 2048) ∧
    Demo.echo 0 [2] 2048 (s.dev 1).addr = some (0, [2], .mac (s.dev 1).addr, 2048) := by
  refine ⟨_, rfl, fun _ _ _ _ => rfl, Demo.sys_initial, demo_properRun _ ?_, rfl, ?_, ?_, by decide, by decide, rfl, rfl⟩
  · intro op hop
    simp only [List.mem_cons, List.not_mem_nil, or_false] at hop
    rcases hop with rfl | rfl <;> exact ⟨_, _, rfl, by decide⟩
  all_goals
    intro t
    exact ⟨by decide, rfl, by decide, by decide, 0, rfl, by decide, fun _ => ⟨by decide, by decide, by decide⟩, (fun h => by cases h), 1,
      rfl, by decide +kernel⟩

end Verif
