import Verif.Demo
import Verif.Lemmas.NetDrain
/-!
# The transmit side of a device (C01 - C09)

Histories are arbitrary finite sequences of API calls on arbitrarily many devices and channels,
interleaved with simulator events, from an arbitrary initial configuration.
-/

namespace Verif
open Spec

/-! ## C01 -/

/-- **C01.** No history makes an assertion of the transmit path fail: transmission started while the
transmitter is busy, completion while idle, completion without a current packet; nor is the missing
channel ever dereferenced. -/
theorem C01_tx_assertions_never_fire {E : Env} {s0 : Sys} {ops : List Op} {e : Fault} (h0 : Initial s0)
    (h : exec E s0 ops = .fail e) :
    e ≠ .txNotReady ∧ e ≠ .txNotBusy ∧ e ≠ .noCurrentPacket ∧ e ≠ .nullChannel := by
  obtain ⟨ops1, op, ops2, s1, _, h1, h2⟩ := exec_fail h
  have := step_fail (fun x => devInv_exec h0 h1 x) h2
  rcases this with rfl | rfl | rfl | rfl | rfl | rfl | rfl | rfl | rfl | rfl <;> simp

/-- Sends that overlap transmissions on two attached devices: the assertions are passed many times. -/
def demoOps : List Op :=
  [.attach 0 0, .attach 1 0, .attach 3 0,
   .send 0 [1] (.mac (Demo.mac 2)) 0x0800, .send 0 [2] (.mac (Demo.mac 2)) 0x0800,
   .send 1 [3] (.mac (Demo.mac 1)) 0x0800, .run, .send 0 [4] (.mac (Demo.mac 4)) 0x0800,
   .run, .run, .run, .run, .run, .run, .run, .run, .run]

/-- The history runs; three frames are put on the air by device 0. -/
example : Demo.check Demo.env Demo.sys demoOps (fun s => (begun 0 s.log).length == 3) = true := by
  decide +kernel

/-- A history that does fail (an address that is not a MAC address): the hypothesis can be met. -/
example : exec Demo.env Demo.sys [.attach 0 0, .send 0 [1] .other 0x0800] = .fail .notAMac := by rfl

/-! ## C02 -/

/-- **C02.** At any time, the frames accepted by `Send` on a device are, in order, the frames already put
on the air followed by the frames waiting in the queue. -/
theorem C02_accepted_is_begun_then_queued {E : Env} {s0 s : Sys} {ops : List Op} (h0 : Initial s0)
    (h : exec E s0 ops = .ok s) (d : DevId) :
    accepted d s.log = begun d s.log ++ (s.dev d).queue :=
  (devInv_exec h0 h d).log.acc

/-- Every frame whose transmission ended had begun, in the same order, and at most one is in progress. -/
theorem C02_begun_is_ended_then_current {E : Env} {s0 s : Sys} {ops : List Op} (h0 : Initial s0)
    (h : exec E s0 ops = .ok s) (d : DevId) :
    ∃ cur : Option Bytes, begun d s.log = ended d s.log ++ cur.toList :=
  ⟨_, (devInv_exec h0 h d).log.beg⟩

example : Demo.check Demo.env Demo.sys (demoOps.take 6)
    (fun s => (accepted 0 s.log).length == 2 && (begun 0 s.log).length == 1 && (s.dev 0).queue.length == 1) = true := by
  decide +kernel

/-! ## C03 -/

theorem alternating_of_flatMap (l : List Bytes) (cur : Option Bytes) :
    Alternating (l.flatMap (fun f => [Phase.start f, .stop f]) ++ (cur.map Phase.start).toList) := by
  induction l with
  | nil =>
    cases cur with
    | none => exact .nil
    | some f => exact .inProgress f
  | cons f l ih => simpa using Alternating.cons f ih

/-- **C03.** On every device PhyTxBegin and PhyTxEnd strictly alternate, each end being that of the frame
begun last. -/
theorem C03_begin_end_alternate {E : Env} {s0 s : Sys} {ops : List Op} (h0 : Initial s0)
    (h : exec E s0 ops = .ok s) (d : DevId) : Alternating (phases d s.log) := by
  rw [(devInv_exec h0 h d).log.phase]
  exact alternating_of_flatMap _ _

example : Demo.check Demo.env Demo.sys demoOps (fun s => (phases 0 s.log).length == 6) = true := by
  decide +kernel

/-- `Alternating` excludes overlapping transmissions. -/
example (f g : Bytes) : ¬ Alternating [.start f, .start g] := by intro h; cases h
/-- `Alternating` excludes an end with another frame. -/
example : ¬ Alternating [.start [1], .stop [2]] := by intro h; cases h

/-! ## C04 -/

/-- Either the transmission of `f` is still in progress and ends at `T`, or it ended at `T`. -/
theorem flying_exec {E : Env} {d : DevId} {f : Bytes} {T : Time} {base : List (Time × Phase)} {ops : List Op}
    {s s' : Sys} (hi : Inv s)
    (hc : (s.dev d).cur = some f) (hb : (s.dev d).busy = true) (ht : ∃ dest, txc d s.pending = [(T, dest)])
    (hp : phasesT d s.log = base) (h : exec E s ops = .ok s') :
    ∃ l', phasesT d s'.log = base ++ l' ∧ ((l' = [] ∧ s'.now ≤ T) ∨ l'.head? = some (T, .stop f)) := by
  induction ops generalizing s with
  | nil =>
    injection h with h; subst h
    refine ⟨[], by simpa using hp, Or.inl ⟨rfl, ?_⟩⟩
    obtain ⟨dest, ht⟩ := ht
    have : (T, dest) ∈ txc d s.pending := by rw [ht]; simp
    unfold txc at this
    obtain ⟨p, hp1, hp2⟩ := List.mem_filterMap.mp this
    have hf := hi.clock.future p hp1
    split at hp2
    · split at hp2
      · injection hp2 with hp2; injection hp2 with hp2 _; omega
      · cases hp2
    · cases hp2
  | cons op ops ih =>
    simp only [exec] at h
    rw [Outcome.bind_eq_ok] at h
    obtain ⟨s1, h1, h2⟩ := h
    have hi1 := inv_step hi h1
    have hlog2 := timeStep_exec hi1.clock h2
    obtain ⟨_, l2, hl2⟩ := hlog2
    obtain ⟨dest, ht⟩ := ht
    cases devStep_step hi.dev h1 d with
    | keep acc kb kc kt _ _ kl =>
      refine ih hi1 (by rw [kc, hc]) (by rw [kb, hb]) ⟨dest, by rw [kt, ht]⟩ ?_ h2
      rw [kl.phase, hp]; simp
    | start g dest' _ kb => rw [hb] at kb; cases kb
    | stop g dest' _ _ kc _ _ kt kl =>
      rw [hc] at kc; injection kc with kc; subst kc
      rw [ht] at kt; injection kt with kt _; injection kt with kt _
      refine ⟨(T, .stop f) :: phasesT d l2, ?_, Or.inr rfl⟩
      rw [hl2]
      have := kl.phase
      unfold phasesT at *
      rw [projT_append, this, hp]; simp [kt]
    | next g g' dest' _ _ _ kc _ _ _ kt _ kl =>
      rw [hc] at kc; injection kc with kc; subst kc
      rw [ht] at kt; injection kt with kt _; injection kt with kt _
      refine ⟨(T, .stop f) :: (T, .start g') :: phasesT d l2, ?_, Or.inr rfl⟩
      rw [hl2]
      have := kl.phase
      unfold phasesT at *
      rw [projT_append, this, hp]; simp [kt]

/-- **C04.** Let an operation begin a transmission of `f` on `d` at time `t`; `rate` and `gap` are the
settings of the device at that moment.  In every continuation, whatever is called meanwhile, either the
frame is still in transmission and the clock has not passed `t + txTime + gap`, or the next transmit
event of the device is the end of `f` exactly then.  In particular no other frame begins before. -/
theorem C04_busy_period_exact {E : Env} {s0 s1 s2 s3 : Sys} {ops1 ops2 : List Op} {op : Op} {d : DevId} {f : Bytes}
    {t : Time} {l : List (Time × Phase)} (h0 : Initial s0) (h1 : exec E s0 ops1 = .ok s1)
    (h2 : step E s1 op = .ok s2) (h3 : exec E s2 ops2 = .ok s3)
    (hb : phasesT d s2.log = phasesT d s1.log ++ (l ++ [(t, .start f)])) :
    t = s2.now ∧ ∃ l', phasesT d s3.log = phasesT d s2.log ++ l' ∧
      ((l' = [] ∧ s3.now ≤ t + (E.txTime (s1.dev d).rate f.length + (s1.dev d).gap)) ∨
       l'.head? = some (t + (E.txTime (s1.dev d).rate f.length + (s1.dev d).gap), .stop f)) := by
  have hi1 := inv_exec (inv_initial h0) h1
  have hi2 := inv_step hi1 h2
  cases devStep_step hi1.dev h2 d with
  | keep acc _ _ _ _ _ kl => have := kl.phase; rw [hb] at this; simp at this
  | start g dest _ _ kb' kc _ kt kl =>
    have := kl.phase; rw [hb] at this
    have := List.append_cancel_left this
    cases l with
    | cons x l => simp at this
    | nil =>
      simp only [List.map_cons, List.map_nil, List.nil_append, List.cons.injEq, and_true, Prod.mk.injEq,
        Phase.start.injEq] at this
      obtain ⟨rfl, rfl⟩ := this
      exact ⟨rfl, flying_exec hi2 kc kb' ⟨dest, kt⟩ rfl h3⟩
  | stop g dest _ _ _ _ _ _ kl =>
    have := kl.phase; rw [hb] at this
    have := List.append_cancel_left this
    cases l with
    | cons x l => simp at this
    | nil => simp at this
  | next g g' dest rest _ kb' _ kc' _ _ _ kt' kl =>
    have := kl.phase; rw [hb] at this
    have := List.append_cancel_left this
    match l with
    | [] => simp at this
    | [x] =>
      simp only [List.map_cons, List.map_nil, List.singleton_append, List.cons.injEq, and_true, Prod.mk.injEq,
        Phase.start.injEq] at this
      obtain ⟨_, rfl, rfl⟩ := this
      exact ⟨rfl, flying_exec hi2 kc' kb' ⟨dest, kt'⟩ rfl h3⟩
    | x :: y :: l => simp at this

/-- Device 0 begins at 0 and at 64 (a 64 byte frame takes 64 time units). -/
example : Demo.check Demo.env Demo.sys demoOps
    (fun s => ((phasesT 0 s.log).map Prod.fst) == [0, 64, 64, 128, 128, 192]) = true := by decide +kernel

/-! ## C05 -/

/-- **C05.** Whenever frames wait in the queue of a device, its last transmit event is the begin of a
frame: a transmission is in progress. -/
theorem C05_waiting_implies_transmitting {E : Env} {s0 s : Sys} {ops : List Op} (h0 : Initial s0)
    (h : exec E s0 ops = .ok s) (d : DevId) (hq : (s.dev d).queue ≠ []) :
    ∃ f, (phases d s.log).getLast? = some (.start f) := by
  have hi := devInv_exec h0 h d
  have hb : (s.dev d).busy = true := by
    by_contra hb
    exact hq (hi.ready (by simpa using hb)).2.1
  obtain ⟨f, _, _, hc, _⟩ := hi.busy hb
  refine ⟨f, ?_⟩
  rw [hi.log.phase, hc]
  simp

/-- If the next event ends a transmission while frames wait, the first of them begins at the same instant. -/
theorem C05_next_frame_at_once {E : Env} {s0 s s' : Sys} {ops : List Op} {op : Op} (h0 : Initial s0)
    (h : exec E s0 ops = .ok s) (hs : step E s op = .ok s') {d : DevId} {g : Bytes} {rest : List Bytes}
    (hq : (s.dev d).queue = g :: rest) {f : Bytes} {t : Time} {l : List (Time × Phase)}
    (he : phasesT d s'.log = phasesT d s.log ++ (t, .stop f) :: l) :
    l = [(t, .start g)] ∧ (s'.dev d).queue = rest := by
  have hi := inv_exec (inv_initial h0) h
  cases devStep_step hi.dev hs d with
  | keep acc _ _ _ _ _ kl => have := kl.phase; rw [he] at this; simp at this
  | start g' dest _ kb =>
    have := ((hi.dev d).ready kb).2.1
    rw [hq] at this; cases this
  | stop g' dest _ _ _ kq => rw [hq] at kq; cases kq
  | next f' g' dest rest' _ _ _ _ kq kq' _ _ kl =>
    rw [hq] at kq; injection kq with k1 k2; subst k1; subst k2
    have := kl.phase; rw [he] at this
    have := List.append_cancel_left this
    simp only [List.map_cons, List.map_nil, List.cons.injEq, Prod.mk.injEq] at this
    exact ⟨by rw [this.2, this.1.1], kq'⟩

/-- When the simulator has run out of events, every accepted frame has been transmitted completely. -/
theorem C05_quiescent_means_all_sent {E : Env} {s0 s : Sys} {ops : List Op} (h0 : Initial s0)
    (h : exec E s0 ops = .ok s) (hp : s.pending = []) (d : DevId) :
    ended d s.log = accepted d s.log ∧ (s.dev d).queue = [] := by
  have hi := devInv_exec h0 h d
  have hb : (s.dev d).busy = false := by
    by_contra hb
    obtain ⟨_, _, _, _, h2⟩ := hi.busy (by simpa using hb)
    rw [hp] at h2; cases h2
  obtain ⟨h1, h2, _⟩ := hi.ready hb
  refine ⟨?_, h2⟩
  rw [hi.log.acc, hi.log.beg, h1, h2]
  simp

/-- From every reachable state the simulator runs out of events after finitely many of them if no more
packets are sent: queues drain, no frame is left behind. -/
theorem C05_queues_drain {E : Env} {s0 s : Sys} {ops : List Op} (h0 : Initial s0)
    (h : exec E s0 ops = .ok s) :
    ∃ n, ∀ s', exec E s (List.replicate n .run) = .ok s' →
      s'.pending = [] ∧ ∀ d, (s'.dev d).queue = [] ∧ ended d s'.log = accepted d s'.log := by
  have hb := bounded_exec (bounded_initial h0) h
  refine ⟨pot (0 + ops.length) (fun d => (s.dev d).queue) s.pending, ?_⟩
  intro s' hs'
  have hp := exec_run_drains _ (inv_exec (inv_initial h0) h) hb (Nat.le_refl _) hs'
  have hex : exec E s0 (ops ++ List.replicate (pot (0 + ops.length) (fun d => (s.dev d).queue) s.pending) .run)
      = .ok s' := by
    rw [exec_append, h]; exact hs'
  refine ⟨hp, fun d => ?_⟩
  obtain ⟨h1, h2⟩ := C05_quiescent_means_all_sent h0 hex hp d
  exact ⟨h2, h1⟩

/-- A state with a waiting frame, which drains. -/
example : Demo.check Demo.env Demo.sys (demoOps.take 6)
    (fun s => (s.dev 0).queue.length == 1 && s.pending.length != 0) = true := by decide +kernel
example : Demo.check Demo.env Demo.sys (demoOps ++ [.run, .run, .run, .run])
    (fun s => (ended 0 s.log).length == 3 && s.pending.length == 0) = true := by decide +kernel

/-! ## C06 -/

/-- **C06.** `Send` ends by returning a result, which is true exactly if the link is up and the queue has
room.  If it is false, no device, no channel and no scheduled event changed, and no transmission began. -/
theorem C06_send_accepted_iff {E : Env} {s s' : Sys} {d : DevId} {p : Bytes} {dest : Addr} {proto : UInt16}
    (h : step E s (.send d p dest proto) = .ok s') :
    ∃ r after pre, s'.log = s.log ++ pre ++ [(s.now, .sendRet d p dest proto r after)] ∧
      (r = true ↔ (s.dev d).linkUp = true ∧ (s.dev d).queue.length < (s.dev d).cap) ∧
      (r = false → s'.dev = s.dev ∧ s'.chan = s.chan ∧ s'.pending = s.pending ∧ ∀ x, phases x pre = []) := by
  rcases send_ok h with ⟨hl, rfl⟩ | ⟨hl, _, m, _, f, hf, hcase⟩
  · exact ⟨false, p, [(s.now, .macTxDrop d p)], by simp, by simp [hl], fun _ => ⟨rfl, rfl, rfl, fun _ => rfl⟩⟩
  · rcases hcase with ⟨hlen, rfl⟩ | ⟨hlen, hb, rfl⟩ | ⟨hlen, hb, g, rest, s3, hq, hts, rfl⟩
    · exact ⟨false, f, [(s.now, .macTx d f), (s.now, .macTxDrop d f)], by simp, by simp [hl, hlen],
        fun _ => ⟨rfl, rfl, rfl, fun _ => rfl⟩⟩
    · exact ⟨true, f, [(s.now, .macTx d f)], by simp, by simp [hl, hlen], by simp⟩
    · obtain ⟨_, c, src, rs, b, hchan, _, _, rfl⟩ := transmitStart_ok hts
      refine ⟨true, f, [(s.now, .macTx d f), (s.now, .promiscSniffer d g), (s.now, .sniffer d g)] ++
        ([(s.now, .phyTxBegin d g), (s.now, .onAir d g dest)] ++
          (rs.map (Recv.entry s.now c g src (E.txTime (s.dev d).rate g.length))
            ++ if b then [] else [(s.now, Ev.phyTxDrop d g)])), ?_, by simp [hl, hlen], by simp⟩
      simp [txState]

/-- Accepted, and rejected because of the full queue (capacity 2, one frame on the air). -/
example : Demo.check Demo.env Demo.sys
    [.attach 0 0, .send 0 [1] (.mac (Demo.mac 2)) 1, .send 0 [2] (.mac (Demo.mac 2)) 1,
     .send 0 [3] (.mac (Demo.mac 2)) 1, .send 0 [4] (.mac (Demo.mac 2)) 1]
    (fun s => s.log.filterMap (fun e => match e.2 with | .sendRet _ _ _ _ r _ => some r | _ => none)
      == [true, true, true, false]) = true := by decide +kernel

/-! ## C07 -/

/-- The full property C07: a rejected `Send` leaves the caller's packet as it was. -/
def RejectedSendLeavesPacket : Prop :=
  ∀ (E : Env) (s0 s : Sys) (ops : List Op), Initial s0 → exec E s0 ops = .ok s →
    ∀ t d p dest proto after, (t, Ev.sendRet d p dest proto false after) ∈ s.log → after = p

/-- **C07 is false**: after an overflow the caller's packet carries headers, padding and trailer. -/
theorem C07_overflow_modifies_packet : ¬ RejectedSendLeavesPacket := by
  intro hall
  obtain ⟨s, h1, h2⟩ := Demo.exists_of_check (E := Demo.env) (s := Demo.sys)
    (ops := [.attach 0 0, .send 0 [1] (.mac (Demo.mac 2)) 1, .send 0 [2] (.mac (Demo.mac 2)) 1,
      .send 0 [3] (.mac (Demo.mac 2)) 1, .send 0 [4] (.mac (Demo.mac 2)) 1])
    (test := fun s => s.log.any (fun e => match e.2 with
      | .sendRet _ p _ _ false after => after != p
      | _ => false)) (by decide +kernel)
  rw [List.any_eq_true] at h2
  obtain ⟨⟨t, e⟩, h3, h4⟩ := h2
  cases e with
  | sendRet d p dest proto r after =>
    cases r with
    | true => simp at h4
    | false =>
      have := hall _ _ _ _ Demo.sys_initial h1 t d p dest proto after h3
      simp [this] at h4
  | _ => simp at h4

/-- **C07, the part that holds**: if the link is down the packet is untouched.  Missing: the overflow case,
where the exact opposite holds (next theorem). -/
theorem C07_link_down_leaves_packet_partial {E : Env} {s s' : Sys} {d : DevId} {p : Bytes} {dest : Addr}
    {proto : UInt16} (hl : (s.dev d).linkUp = false) (h : step E s (.send d p dest proto) = .ok s') :
    s'.log = s.log ++ [(s.now, .macTxDrop d p), (s.now, .sendRet d p dest proto false p)] := by
  rcases send_ok h with ⟨_, rfl⟩ | ⟨hl', _⟩
  · rfl
  · rw [hl] at hl'; cases hl'

/-- What an overflow does: the packet comes back framed, at least 64 bytes long, thus changed unless
it was that very frame. -/
theorem C07_overflow_returns_framed_packet {E : Env} {s s' : Sys} {d : DevId} {p : Bytes} {m : Mac48}
    {proto : UInt16} (hl : (s.dev d).linkUp = true) (hq : ¬ (s.dev d).queue.length < (s.dev d).cap)
    (h : step E s (.send d p (.mac m) proto) = .ok s') :
    ∃ f, s'.log = s.log ++ [(s.now, .macTx d f), (s.now, .macTxDrop d f),
        (s.now, .sendRet d p (.mac m) proto false f)] ∧ f = addHeader E.fcs p (s.dev d).addr m proto := by
  have h' : send E s d p (.mac m) proto = .ok s' := h
  rcases send_ok h' with ⟨hl', _⟩ | ⟨_, _, m', hm, f, hf, hcase⟩
  · rw [hl] at hl'; cases hl'
  · injection hm with hm; subst hm
    rcases hcase with ⟨_, rfl⟩ | ⟨hlen, _⟩ | ⟨hlen, _⟩
    · exact ⟨f, rfl, hf⟩
    · exact absurd hlen hq
    · exact absurd hlen hq

example : (Demo.sys.dev 0).linkUp = false ∧
    Demo.runs Demo.env Demo.sys [.send 0 [1] (.mac (Demo.mac 2)) 1] = true := by decide +kernel

/-! ## C08 -/

/-- **C08.** While the link of a device is down and it is not attached again, no `Send` is accepted. -/
theorem C08_no_send_accepted_while_down {E : Env} {s s' : Sys} {d : DevId} {ops : List Op} (hi : ∀ x, DevInv s x)
    (hl : (s.dev d).linkUp = false) (hops : ∀ c, Op.attach d c ∉ ops) (h : exec E s ops = .ok s') :
    accepted d s'.log = accepted d s.log ∧ (s'.dev d).linkUp = false := by
  induction ops generalizing s with
  | nil => injection h with h; subst h; exact ⟨rfl, hl⟩
  | cons op ops ih =>
    simp only [exec] at h
    rw [Outcome.bind_eq_ok] at h
    obtain ⟨s1, h1, h2⟩ := h
    have hl1 : (s1.dev d).linkUp = false := linkUp_step hl (fun c hh => hops c (by simp [← hh])) h1
    have hacc : accepted d s1.log = accepted d s.log := by
      have hno : ∀ dest f, ¬ SendsFrame E s op d dest f ∨ accepted d s1.log = accepted d s.log := by
        intro dest f
        by_cases hs : SendsFrame E s op d dest f
        · right
          obtain ⟨p, proto, m, rfl, _, _⟩ := hs
          rcases send_ok h1 with ⟨_, rfl⟩ | ⟨hl', _⟩
          · simp [accepted, acceptedEv]
          · rw [hl] at hl'; cases hl'
        · exact Or.inl hs
      cases devStep_step hi h1 d with
      | keep acc _ _ _ kacc _ kl =>
        rcases kacc with rfl | ⟨_, dest, f, _, hs⟩
        · rw [kl.acc]; simp
        · rcases hno dest f with h | h
          · exact absurd hs h
          · exact h
      | start f dest hs =>
        rcases hno dest f with h | h
        · exact absurd hs h
        · exact h
      | stop _ _ _ _ _ _ _ _ kl => rw [kl.acc]; simp
      | next _ _ _ _ _ _ _ _ _ _ _ _ kl => rw [kl.acc]; simp
    obtain ⟨h3, h4⟩ := ih (fun x => devInv_step hi h1 x) hl1 (fun c hc => hops c (by simp [hc])) h2
    exact ⟨by rw [h3, hacc], h4⟩

/-- The same for histories from the start. -/
theorem C08_down_link_accepts_nothing {E : Env} {s0 s s' : Sys} {d : DevId} {ops1 ops2 : List Op} (h0 : Initial s0)
    (h1 : exec E s0 ops1 = .ok s) (hl : (s.dev d).linkUp = false) (hops : ∀ c, Op.attach d c ∉ ops2)
    (h2 : exec E s ops2 = .ok s') : accepted d s'.log = accepted d s.log :=
  (C08_no_send_accepted_while_down (fun x => devInv_exec h0 h1 x) hl hops h2).1

/-- A `Send` on a down link has no effect but the drop trace and the result. -/
theorem C08_send_on_down_link {E : Env} {s : Sys} {d : DevId} {p : Bytes} {dest : Addr} {proto : UInt16}
    (hl : (s.dev d).linkUp = false) :
    step E s (.send d p dest proto) =
      .ok { s with log := s.log ++ [(s.now, .macTxDrop d p), (s.now, .sendRet d p dest proto false p)] } := by
  simp [step, send, hl, Sys.emit]

/-- `SendFrom` never transmits: only its result, false, is observable. -/
theorem C08_sendFrom_returns_false {E : Env} {s : Sys} {d : DevId} {p : Bytes} {src dest : Addr} {proto : UInt16} :
    step E s (.sendFrom d p src dest proto) = .ok { s with log := s.log ++ [(s.now, .sendFromRet d false)] } := rfl

/-- A device detached while frames wait in its queue: link down, nothing accepted any more. -/
example : Demo.check Demo.env Demo.sys
    [.attach 0 0, .send 0 [1] (.mac (Demo.mac 2)) 1, .send 0 [2] (.mac (Demo.mac 2)) 1, .detach 0 0,
     .send 0 [3] (.mac (Demo.mac 2)) 1, .run]
    (fun s => !(s.dev 0).linkUp && (accepted 0 s.log).length == 2) = true := by decide +kernel

/-! ## C09 -/

/-- The full property C09: every transmission is handed to the channel with the destination given to the
`Send` that produced the frame. -/
def FrameKeepsDestination : Prop :=
  ∀ (E : Env) (s0 s : Sys) (ops : List Op), Initial s0 → exec E s0 ops = .ok s →
    ∀ t d f dest, (t, Ev.onAir d f dest) ∈ s.log →
      ∃ t' p proto, (t', Ev.sendRet d p dest proto true f) ∈ s.log

/-- Two packets of device 0 for devices 1 and 3 on an ISL channel, the second sent while the first is on
the air. -/
def c09Ops : List Op :=
  [.attach 0 1, .attach 1 1, .attach 3 1,
   .send 0 [1] (.mac (Demo.mac 2)) 1, .send 0 [2] (.mac (Demo.mac 4)) 1, .run, .run, .run, .run]

/-- **C09 is false**: a frame that waited in the queue is handed to the channel with the destination of the
frame transmitted before it. -/
theorem C09_queued_frame_gets_wrong_destination : ¬ FrameKeepsDestination := by
  intro hall
  obtain ⟨s, h1, h2⟩ := Demo.exists_of_check (E := Demo.env) (s := Demo.sys) (ops := c09Ops)
    (test := fun s => s.log.any (fun e => match e.2 with
      | .onAir d f dest => !s.log.any (fun e' => match e'.2 with
        | .sendRet d' _ dest' _ true f' => d' == d && f' == f && dest' == dest
        | _ => false)
      | _ => false)) (by decide +kernel)
  rw [List.any_eq_true] at h2
  obtain ⟨⟨t, e⟩, h3, h4⟩ := h2
  cases e with
  | onAir d f dest =>
    obtain ⟨t', p, proto, h5⟩ := hall _ _ _ _ Demo.sys_initial h1 t d f dest h3
    simp only [Bool.not_eq_true', List.any_eq_false] at h4
    have := h4 _ h5
    simp at this
  | _ => simp at h4

/-- The consequence: the second packet, sent to device 3, is received by device 1 only. -/
example :
    Demo.check Demo.env Demo.sys c09Ops
      (fun s => (received 0 1 s.log).length == 2 && (received 0 3 s.log).length == 0) = true := by
  decide +kernel

/-- **C09, the part that holds**: a device that only ever sends to one destination has all its frames
handed to the channel with that destination.  Missing: changing destinations while frames wait. -/
theorem C09_single_destination_partial {E : Env} {s0 s : Sys} {ops : List Op} {d : DevId} {D : Addr} (h0 : Initial s0)
    (hops : ∀ p x proto, Op.send d p x proto ∈ ops → x = D) (h : exec E s0 ops = .ok s) :
    ∀ t f dest, (t, Ev.onAir d f dest) ∈ s.log → dest = D := by
  have key : ∀ (ops : List Op) (s1 : Sys), Inv s1 → (∀ p x proto, Op.send d p x proto ∈ ops → x = D) →
      (∀ x ∈ airs d s1.log, x.2 = D) → (∀ x ∈ txc d s1.pending, x.2 = D) → exec E s1 ops = .ok s →
      ∀ x ∈ airs d s.log, x.2 = D := by
    intro ops
    induction ops with
    | nil => intro s1 _ _ ha _ h; injection h with h; subst h; exact ha
    | cons op ops ih =>
      intro s1 hi hops ha ht h
      simp only [exec] at h
      rw [Outcome.bind_eq_ok] at h
      obtain ⟨s2, h1, h2⟩ := h
      refine ih s2 (inv_step hi h1) (fun p x proto hx => hops p x proto (by simp [hx])) ?_ ?_ h2
      · cases devStep_step hi.dev h1 d with
        | keep acc _ _ _ _ _ kl => rw [kl.air]; simpa using ha
        | start g dest hs _ _ _ _ _ kl =>
          obtain ⟨p, proto, m, rfl, _, _⟩ := hs
          have hd : dest = D := hops p dest proto (by simp)
          rw [kl.air]
          intro x hx
          rcases List.mem_append.mp hx with hx | hx
          · exact ha x hx
          · simp at hx; simp [hx, hd]
        | stop _ _ _ _ _ _ _ _ kl => rw [kl.air]; simpa using ha
        | next f g dest rest _ _ _ _ _ _ kt _ kl =>
          have hd : dest = D := ht (s2.now, dest) (by simp [kt])
          rw [kl.air]
          intro x hx
          rcases List.mem_append.mp hx with hx | hx
          · exact ha x hx
          · simp at hx; simp [hx, hd]
      · cases devStep_step hi.dev h1 d with
        | keep acc _ _ kt _ _ kl => rw [kt]; exact ht
        | start g dest hs _ _ _ _ kt kl =>
          obtain ⟨p, proto, m, rfl, _, _⟩ := hs
          have hd : dest = D := hops p dest proto (by simp)
          rw [kt]; simp [hd]
        | stop _ _ _ kb _ _ _ _ kl => rw [((devInv_step hi.dev h1 d).ready kb).2.2]; simp
        | next f g dest rest _ _ _ _ _ _ kt kt' kl =>
          have hd : dest = D := ht (s2.now, dest) (by simp [kt])
          rw [kt']; simp [hd]
  intro t f dest hx
  have := key ops s0 (inv_initial h0) hops (by rw [h0.log]; simp [airs]) (by rw [h0.pending]; simp [txc]) h
    (f, dest) (by
      unfold airs proj
      rw [List.mem_filterMap]
      exact ⟨_, hx, by simp [airEv]⟩)
  exact this

/-- Two frames of device 0 to one destination, the second one queued. -/
example : Demo.check Demo.env Demo.sys
    [.attach 0 1, .attach 1 1, .send 0 [1] (.mac (Demo.mac 2)) 1, .send 0 [2] (.mac (Demo.mac 2)) 1, .run, .run, .run]
    (fun s => (airs 0 s.log).map Prod.snd == [.mac (Demo.mac 2), .mac (Demo.mac 2)]) = true := by decide +kernel

end Verif
