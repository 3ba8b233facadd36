import Verif.Props.Frame
import Verif.Lemmas.Provenance
import Verif.Demo
/-!
# Receptions over time: C25, C26, C28, C29, C30
-/

namespace Verif
open Spec

/-- Two nodes with positions, 5 time units apart. -/
def farEnv : Env :=
  { Demo.env with hasMob := fun _ => true, delay := fun _ => some (fun _ _ _ => 5) }

/-- Propagation delay that shrinks: 500 before time 30, 1 from then on. -/
def movingEnv : Env :=
  { Demo.env with
    hasMob := fun _ => true, delay := fun _ => some (fun _ _ t => if t < 30 then 500 else 1) }

/-- A ground device sends three packets of different sizes to a satellite. -/
def trafficOps : List Op :=
  [.attach 0 0, .attach 1 0, .send 0 [1, 2, 3] (.mac (Demo.mac 2)) 7, .send 0 [4] (.mac (Demo.mac 2)) 7,
   .send 0 [5, 6] (.mac (Demo.mac 2)) 7]

/-- Run `n` events after the traffic. -/
def trafficRun (n : Nat) : List Op := trafficOps ++ List.replicate n .run

/-! ## C26 -/

/-- C26: a hand-over obeys the delay law: the transmission time on the device's data rate, the delay
of the delay model if both nodes have positions (0 without a model), the transmission time otherwise. -/
theorem C26_delay_law {E : Env} {s0 s : Sys} {ops : List Op} (h0 : Initial s0) (h : exec E s0 ops = .ok s)
    {t : Time} {c : ChanId} {f : Bytes} {src dst : DevId} {tx del : Time}
    (hm : (t, Ev.txrx c f src dst tx del) ∈ s.log) :
    ∃ ns nd, (s0.dev src).node = some ns ∧ (s0.dev dst).node = some nd ∧ DelayLaw E c ns nd t tx del ∧
      (∃ o1 o2 s1, ops = o1 ++ o2 ∧ exec E s0 o1 = .ok s1 ∧ tx = E.txTime (s1.dev src).rate f.length) ∧
      (t, Ev.phyTxBegin src f) ∈ s.log := by
  obtain ⟨o1, op, o2, s1, s2, rfl, h1, h2, h3, h4⟩ := log_entry_origin h0 h hm
  have hg := good_exec h0 h1
  obtain ⟨dest, pw, _, _, _, rfl, htx, hr, _, hb⟩ := txrx_step hg.inv hg.wired h2 h4
  unfold reachDev at hr
  simp only at hr
  rw [node_exec h1, node_exec h1] at hr
  cases hns : (s0.dev src).node with
  | none => rw [hns] at hr; cases hr
  | some ns =>
    cases hnd : (s0.dev dst).node with
    | none => rw [hns, hnd] at hr; cases hr
    | some nd =>
      rw [hns, hnd] at hr
      refine ⟨ns, nd, rfl, rfl, ?_, ⟨o1, op :: o2, s1, rfl, h1, htx⟩, newLog_sub hg h2 h3 hb⟩
      unfold reach at hr
      unfold DelayLaw
      cases m1 : E.hasMob ns <;> cases m2 : E.hasMob nd <;> simp only [m1, m2] at hr
      · injection hr with hr; injection hr with hr _; simp [hr]
      · injection hr with hr; injection hr with hr _; simp [hr]
      · injection hr with hr; injection hr with hr _; simp [hr]
      · have hdel : del = ((E.delay c).map fun g => g ns nd s2.now).getD 0 := by
          split at hr
          · injection hr with hr; injection hr with hr _; exact hr.symm
          · split at hr
            · injection hr with hr; injection hr with hr _; exact hr.symm
            · cases hr
        refine ⟨fun _ _ g hg => by rw [hdel, hg]; rfl, fun _ _ hg => by rw [hdel, hg]; rfl, ?_⟩
        simp

example : Demo.check farEnv Demo.sys (trafficRun 0)
    (fun s => s.log.any fun e => e.2 == .txrx 0 (addHeader Demo.env.fcs [1, 2, 3] (Demo.mac 1) (Demo.mac 2) 7) 0 1 64 5) = true := by
  decide +kernel

/-- C26: the receptions that happened together with those scheduled are exactly the announced ones: a
hand-over at `t` with delay `del` makes the receiver's `Receive` run exactly once, exactly at `t + del`. -/
theorem C26_receptions_as_announced {E : Env} {s0 s : Sys} {ops : List Op} (h0 : Initial s0)
    (h : exec E s0 ops = .ok s) : (happened s.log ++ scheduled s.pending).Perm (announced s.log) :=
  (good_exec h0 h).acc

/-- Nothing scheduled is in the past: once its time has passed, every announced reception has happened, as
often as it was announced. -/
theorem C26_past_announcements_happened {E : Env} {s0 s : Sys} {ops : List Op} (h0 : Initial s0)
    (h : exec E s0 ops = .ok s) {a : Arrival} (hp : a.time < s.now) :
    (happened s.log).count a = (announced s.log).count a := by
  have hg := good_exec h0 h
  have h1 := (hg.acc.count_eq a)
  rw [List.count_append] at h1
  have h2 : (scheduled s.pending).count a = 0 := by
    rw [List.count_eq_zero]
    intro hm
    unfold scheduled at hm
    obtain ⟨p, hp1, hp2⟩ := List.mem_filterMap.mp hm
    have h3 := hg.inv.clock.future p hp1
    unfold arrivalOf at hp2
    split at hp2
    · injection hp2 with hp2; rw [← hp2] at hp; simp only at hp; omega
    · cases hp2
  omega

example : Demo.check farEnv Demo.sys (trafficRun 1)
    (fun s => decide (happened s.log = [⟨5, 1, addHeader Demo.env.fcs [1, 2, 3] (Demo.mac 1) (Demo.mac 2) 7, 0⟩])) = true := by
  decide +kernel

/-! ## C25 -/

/-- The propagation delay between two nodes as the delay model of the channel states it. -/
def Spec.propagation (E : Env) (c : ChanId) (ns nd : NodeId) (t : Time) : Time :=
  match E.hasMob ns, E.hasMob nd, E.delay c with
  | true, true, some g => g ns nd t
  | _, _, _ => 0

/-- What C25 asks for: no frame is received before its last bit can have arrived. -/
def Spec.LastBitFirst (E : Env) (s : Sys) : Prop :=
  ∀ a ∈ happened s.log, ∃ t c tx del ns nd, (t, Ev.txrx c a.frame a.src a.dst tx del) ∈ s.log ∧
    (s.dev a.src).node = some ns ∧ (s.dev a.dst).node = some nd ∧
    t + tx + propagation E c ns nd t ≤ a.time

/-- C25 fails for nodes with positions: 64 time units of transmission, received after 5. -/
theorem C25_received_before_sent_out :
    ¬ ∀ (E : Env) (s0 s : Sys) (ops : List Op), Initial s0 → exec E s0 ops = .ok s → LastBitFirst E s := by
  intro hall
  obtain ⟨s, hs, ht⟩ := Demo.exists_of_check (E := farEnv) (s := Demo.sys) (ops := trafficRun 1)
    (test := fun s => decide (∃ a ∈ happened s.log, a.time = 5) &&
      s.log.all (fun e => match e.2 with | .txrx _ _ _ _ tx _ => decide (5 < e.1 + tx) | _ => true)) (by decide +kernel)
  rw [Bool.and_eq_true, decide_eq_true_eq, List.all_eq_true] at ht
  obtain ⟨⟨a, ha, ha5⟩, hlog⟩ := ht
  obtain ⟨t, c, tx, del, ns, nd, hm, _, _, hle⟩ := hall _ _ _ _ Demo.sys_initial hs a ha
  have := hlog _ hm
  simp only [decide_eq_true_eq] at this
  omega

/-- The law the code implements instead: between nodes with positions the transmission time is ignored,
so the reception is early by exactly the transmission time. -/
theorem C25_early_by_transmission_time {E : Env} {s0 s : Sys} {ops : List Op} (h0 : Initial s0)
    (h : exec E s0 ops = .ok s) {t : Time} {c : ChanId} {f : Bytes} {src dst : DevId} {tx del : Time}
    (hm : (t, Ev.txrx c f src dst tx del) ∈ s.log) {ns nd : NodeId} (hns : (s0.dev src).node = some ns)
    (hnd : (s0.dev dst).node = some nd) (m1 : E.hasMob ns = true) (m2 : E.hasMob nd = true) :
    (t + tx + propagation E c ns nd t) - (t + del) = tx := by
  obtain ⟨ns', nd', h1, h2, hl, _⟩ := C26_delay_law h0 h hm
  rw [hns] at h1; injection h1 with h1; subst h1
  rw [hnd] at h2; injection h2 with h2; subst h2
  obtain ⟨l1, l2, _⟩ := hl
  unfold propagation
  cases hd : E.delay c with
  | none => rw [l2 m1 m2 hd]; simp only [m1, m2]; omega
  | some g => rw [l1 m1 m2 g hd]; simp only [m1, m2]; omega

/-- What holds of C25: senders or receivers without position.  Then every reception is exactly at the
end of the transmission (the propagation delay is taken as 0).  Missing: nodes with positions, where the
claim is false (`C25_received_before_sent_out`). -/
theorem C25_last_bit_first_partial {E : Env} {s0 s : Sys} {ops : List Op} (h0 : Initial s0)
    (h : exec E s0 ops = .ok s)
    (hmob : ∀ src dst ns nd, (s0.dev src).node = some ns → (s0.dev dst).node = some nd →
      E.hasMob ns = false ∨ E.hasMob nd = false) : LastBitFirst E s := by
  intro a ha
  have ha' : a ∈ announced s.log :=
    (C26_receptions_as_announced h0 h).subset (List.mem_append_left _ ha)
  obtain ⟨t, c, tx, del, hm, htime⟩ := mem_announced.mp ha'
  obtain ⟨ns, nd, h1, h2, ⟨_, _, l3⟩, _⟩ := C26_delay_law h0 h hm
  refine ⟨t, c, tx, del, ns, nd, hm, by rw [node_exec h, h1], by rw [node_exec h, h2], ?_⟩
  have hmo := hmob _ _ _ _ h1 h2
  rw [htime, l3 hmo]
  unfold propagation
  rcases hmo with hmo | hmo <;> cases h3 : E.hasMob ns <;> cases h4 : E.hasMob nd <;> simp_all

example : Demo.check Demo.env Demo.sys (trafficRun 2)
    (fun s => decide (∃ a ∈ happened s.log, a.time = 64)) = true := by decide +kernel

/-! ## C28 -/

/-- A frame that stops the simulation when decoded is never passed up. -/
theorem receive_undecodable {E : Env} {s s' : Sys} {d src : DevId} {f : Bytes} {rx : Power} {x : Fault} {l : List Ev}
    (h : receive E s d f src rx = .ok s') (hdec : decode E.fcs f = .fail x)
    (hlog : s'.log = s.log ++ ((s.now, .recvCall d f src rx) :: l.map (fun e => (s.now, e))))
    (d' : DevId) (p : Bytes) (proto : UInt16) (sa : Mac48) : Ev.rxCallback d' p proto sa ∉ l := by
  unfold receive at h
  simp only [Sys.emit, effectivePower_eq, List.length_append, List.length_singleton] at h
  have fin : ∀ k : List Ev, (∀ e ∈ k, e ≠ Ev.rxCallback d' p proto sa) →
      s'.log = s.log ++ ((s.now, .recvCall d f src rx) :: k.map (fun e => (s.now, e))) →
      Ev.rxCallback d' p proto sa ∉ l := by
    intro k hk hlog' hm
    rw [hlog] at hlog'
    have := List.append_cancel_left hlog'
    injection this with _ this
    have : l = k := List.map_injective_iff.mpr (fun a b hab => by injection hab) this
    subst this
    exact hk _ hm rfl
  by_cases hsd : src = d
  · rw [if_pos hsd] at h
    injection h with h
    exact fin [.macRxDrop d f] (by simp) (by rw [← h]; simp)
  · rw [if_neg hsd] at h
    by_cases hrx : effectivePower (s.dev d) rx < (s.dev d).rxThreshold
    · rw [if_pos hrx] at h
      injection h with h
      exact fin [.phyRxEnd d f, .phyRxDrop d f] (by simp) (by rw [← h]; simp)
    · rw [if_neg hrx, hdec] at h
      by_cases hco : E.corrupt d s.now (s.log.length + 1) f = true
      · rw [if_pos hco] at h
        injection h with h
        exact fin [.phyRxEnd d f, .phyRxDrop d f] (by simp) (by rw [← h]; simp)
      · rw [if_neg hco] at h
        cases h

/-- C28: every packet passed up was sent.  A call of the receive callback of `d` goes back to a `Send`
that returned true, of another device, earlier in the history, whose frame was put on the air, handed to `d` by a channel and
accepted by the filter of `d`; a packet of at most 1492 bytes comes out with the bytes, the protocol and the
source address it was sent with. -/
theorem C28_provenance {E : Env} {s0 s : Sys} {ops : List Op} (h0 : Initial s0) (h : exec E s0 ops = .ok s)
    {t : Time} {d : DevId} {p : Bytes} {proto : UInt16} {sa : Mac48}
    (hm : (t, Ev.rxCallback d p proto sa) ∈ s.log) :
    ∃ o1 src q m pr o2 o3 s1 s2, ops = o1 ++ .send src q (.mac m) pr :: (o2 ++ .run :: o3) ∧
      exec E s0 o1 = .ok s1 ∧ exec E s0 (o1 ++ .send src q (.mac m) pr :: o2) = .ok s2 ∧
      src ≠ d ∧
      (s1.now, Ev.sendRet src q (.mac m) pr true (addHeader E.fcs q (s1.dev src).addr m pr)) ∈ s2.log ∧
      (∃ t0 c tx del, (t0, Ev.txrx c (addHeader E.fcs q (s1.dev src).addr m pr) src d tx del) ∈ s2.log ∧
        (t0, Ev.phyTxBegin src (addHeader E.fcs q (s1.dev src).addr m pr)) ∈ s2.log ∧ t = t0 + del) ∧
      (∃ da, decode E.fcs (addHeader E.fcs q (s1.dev src).addr m pr) = .ok (.good p proto sa da) ∧
        ForMe da (s2.dev d).addr) ∧
      (q.length ≤ 1492 → p = q ∧ proto = pr ∧ sa = (s1.dev src).addr ∧ ForMe m (s2.dev d).addr) := by
  obtain ⟨oR, op, o3, s2, s3, rfl, h1, h2, h3, h4⟩ := log_entry_origin h0 h hm
  have hg := good_exec h0 h1
  obtain ⟨f, src, rx, l, rfl, rfl, hp, hlog, hl, hcall⟩ := rxCallback_step hg.inv hg.wired h2 h4
  -- the reception was announced
  have hann : (⟨s3.now, d, f, src⟩ : Arrival) ∈ announced s2.log := by
    refine hg.acc.subset (List.mem_append_right _ ?_)
    unfold scheduled
    rw [hp]
    simp [arrivalOf]
  obtain ⟨t0, c, tx, del, htx, htime⟩ := mem_announced.mp hann
  simp only at htx htime
  obtain ⟨_, _, _, _, _, _, hbeg⟩ := C26_delay_law h0 h1 htx
  -- the frame was accepted
  have hacc : f ∈ accepted src s2.log := by
    rw [(hg.inv.dev src).log.acc]
    exact List.mem_append_left _ (mem_begun.mpr ⟨_, hbeg⟩)
  obtain ⟨o1, q, m, pr, o2, s1, rfl, e1, hf, hret⟩ := accepted_origin h0 h1 hacc
  subst hf
  -- the filter
  have huse : ∀ {p' proto' sa' da}, decode E.fcs (addHeader E.fcs q (s1.dev src).addr m pr) = .ok (.good p' proto' sa' da) →
      src ≠ d ∧ ForMe da (s2.dev d).addr ∧ p = p' ∧ proto = proto' ∧ sa = sa' := by
    intro p' proto' sa' da hdec
    obtain ⟨l', hs', hup, hno, _⟩ := C14_receive_filter hcall hdec
    have hll : l = l' := by
      have := congrArg Sys.log hs'
      rw [hlog] at this
      have := List.append_cancel_left this
      injection this with _ this
      exact List.map_injective_iff.mpr (fun a b hab => by injection hab) this
    subst hll
    have hmem : (p, proto, sa) ∈ upcalls d l := by
      unfold upcalls
      exact List.mem_filterMap.mpr ⟨_, hl, by simp⟩
    by_cases hcond : src ≠ d ∧ Audible (s2.dev d) rx (E.corrupt d s3.now (s2.log.length + 1)
        (addHeader E.fcs q (s1.dev src).addr m pr)) ∧ ForMe da (s2.dev d).addr
    · rw [hup hcond] at hmem
      simp only [List.mem_singleton, Prod.mk.injEq] at hmem
      exact ⟨hcond.1, hcond.2.2, hmem⟩
    · rw [hno hcond] at hmem
      cases hmem
  have hdec := decode_addHeader E.fcs q (s1.dev src).addr m pr
  have main : src ≠ d ∧ (∃ da, decode E.fcs (addHeader E.fcs q (s1.dev src).addr m pr) = .ok (.good p proto sa da) ∧
        ForMe da (s2.dev d).addr) ∧
      (q.length ≤ 1492 → p = q ∧ proto = pr ∧ sa = (s1.dev src).addr ∧ ForMe m (s2.dev d).addr) := by
    by_cases hlen : q.length + 8 ≤ 1500
    · rw [if_pos hlen] at hdec
      obtain ⟨u1, u2, rfl, rfl, rfl⟩ := huse hdec
      exact ⟨u1, ⟨m, hdec, u2⟩, fun _ => ⟨rfl, rfl, rfl, u2⟩⟩
    · rw [if_neg hlen] at hdec
      by_cases hmod : (q.length + 8) % 65536 ≤ 1500
      · rw [if_pos hmod] at hdec
        exact absurd hl (receive_undecodable hcall hdec hlog _ _ _ _)
      · rw [if_neg hmod] at hdec
        obtain ⟨u1, u2, rfl, rfl, rfl⟩ := huse hdec
        exact ⟨u1, ⟨m, hdec, u2⟩, fun hq => absurd hq (by omega)⟩
  exact ⟨o1, src, q, m, pr, o2, o3, s1, s2, by simp, e1, h1, main.1, hret, ⟨t0, c, tx, del, htx, hbeg, htime⟩, main.2.1, main.2.2⟩

example : Demo.check farEnv Demo.sys (trafficRun 1)
    (fun s => s.log.any fun e => e == (5, .rxCallback 1 [1, 2, 3] 7 (Demo.mac 1))) = true := by decide +kernel

/-! ## C13, frames of the device -/

/-- C13: every frame a device ever has in its queue or puts on the air was built by `Send` from a packet it accepted:
its length is that of the packet plus 26 bytes, at least 64. -/
theorem C13_frames_of_device {E : Env} {s0 s : Sys} {ops : List Op} (h0 : Initial s0) (h : exec E s0 ops = .ok s)
    {d : DevId} {f : Bytes} (hf : f ∈ (s.dev d).queue ∨ f ∈ begun d s.log) :
    ∃ t p dest proto, (t, Ev.sendRet d p dest proto true f) ∈ s.log ∧ f.length = max 64 (p.length + 26) := by
  have hacc : f ∈ accepted d s.log := by
    rw [((good_exec h0 h).inv.dev d).log.acc]
    exact List.mem_append.mpr hf.symm
  obtain ⟨o1, q, m, pr, o2, s1, rfl, e1, rfl, hret⟩ := accepted_origin h0 h hacc
  exact ⟨_, q, _, pr, hret, (C13_frame_layout _ _ _ _ _).2⟩

/-- One frame on the air, one waiting. -/
example : Demo.check Demo.env Demo.sys
    [.attach 0 0, .send 0 [1] (.mac (Demo.mac 2)) 1, .send 0 (List.replicate 50 2) (.mac (Demo.mac 2)) 1]
    (fun s => (begun 0 s.log).map List.length == [64] && (s.dev 0).queue.map List.length == [76]) = true := by decide +kernel

/-! ## C29 -/

/-- C29: at most one copy of every transmission.  If no device is attached twice to the same channel, the
frames handed from `src` to `dst` are a subsequence of the transmissions of `src`, and `dst` receives (or is
about to receive) no frame more often than `src` transmitted it. -/
theorem C29_at_most_one_copy {E : Env} {s0 s : Sys} {ops : List Op} (h0 : Initial s0) (h : exec E s0 ops = .ok s)
    (hnd : ∀ c, (s.chan c).link.Nodup) (src dst : DevId) :
    (handed src dst s.log).Sublist (begun src s.log) ∧
    ∀ f, (received src dst s.log).count f + (pendingRecv src dst s.pending).count f ≤ (begun src s.log).count f := by
  have h1 := handed_exec h0 h hnd src dst
  refine ⟨h1, fun f => ?_⟩
  have h2 := (between_perm (src := src) (dst := dst) (good_exec h0 h).acc).map Arrival.frame
  rw [between_append, List.map_append, between_happened, between_scheduled_frames, between_announced] at h2
  rw [← List.count_append, h2.count_eq]
  exact h1.count_le f

example : Demo.check farEnv Demo.sys (trafficRun 2)
    (fun s => (received 0 1 s.log).length == 1 && (begun 0 s.log).length == 2
      && decide (s.chan 0).link.Nodup && decide (s.chan 1).link.Nodup) = true := by decide +kernel

/-- The hypothesis is needed: a device attached twice to an ISL channel gets every broadcast twice. -/
theorem C29_attached_twice_receives_twice :
    ¬ ∀ (E : Env) (s0 s : Sys) (ops : List Op), Initial s0 → exec E s0 ops = .ok s → ∀ src dst f,
      (received src dst s.log).count f + (pendingRecv src dst s.pending).count f ≤ (begun src s.log).count f := by
  intro hall
  obtain ⟨s, hs, ht⟩ := Demo.exists_of_check (E := Demo.env) (s := Demo.sys)
    (ops := [.attach 0 1, .attach 1 1, .attach 1 1, .send 0 [1] (.mac Mac48.broadcast) 7])
    (test := fun s => decide (∃ f ∈ begun 0 s.log, (begun 0 s.log).count f < (pendingRecv 0 1 s.pending).count f))
    (by decide +kernel)
  rw [decide_eq_true_eq] at ht
  obtain ⟨f, _, hf⟩ := ht
  have := hall _ _ _ _ Demo.sys_initial hs 0 1 f
  omega

/-! ## C30 -/

/-- C30, general form: if announced arrival times from `src` to `dst` never decrease, frames are received in
the order in which they were handed over, and those still scheduled are the last ones. -/
theorem C30_in_order {E : Env} {s0 s : Sys} {ops : List Op} (h0 : Initial s0) (h : exec E s0 ops = .ok s)
    (src dst : DevId)
    (hmono : (between src dst (announced s.log)).Pairwise (fun a b => a.time ≤ b.time)) :
    received src dst s.log ++ pendingRecv src dst s.pending = handed src dst s.log := by
  have h1 := ordered_exec (good_initial h0) h (by rw [h0.log, h0.pending]; rfl) hmono
  have h2 := congrArg (List.map Arrival.frame) h1
  rw [List.map_append, between_happened, between_scheduled_frames, between_announced] at h2
  exact h2

theorem between_announced_pairwise {log : List (Time × Ev)} {src dst : DevId} {D : Time}
    (hs : log.Pairwise (fun a b => a.1 ≤ b.1))
    (hD : ∀ t c f tx del, (t, Ev.txrx c f src dst tx del) ∈ log → del = D) :
    (between src dst (announced log)).Pairwise (fun a b => a.time ≤ b.time) := by
  unfold between announced
  rw [List.pairwise_filter, List.pairwise_filterMap]
  rw [List.pairwise_iff_forall_sublist] at hs ⊢
  rintro ⟨t1, e1⟩ ⟨t2, e2⟩ hab
  have h1 := hs hab
  have hm1 := hab.subset (show (t1, e1) ∈ [(t1, e1), (t2, e2)] by simp)
  have hm2 := hab.subset (show (t2, e2) ∈ [(t1, e1), (t2, e2)] by simp)
  cases e1 <;> first | (intro b hb; cases hb; done) | skip
  cases e2 <;> first | (intro b hb b' hb'; cases hb'; done) | skip
  intro b hb b' hb' hc hc'
  injection hb with hb
  injection hb' with hb'
  subst hb hb'
  simp only [Bool.and_eq_true, decide_eq_true_eq] at hc hc'
  obtain ⟨rfl, rfl⟩ := hc
  obtain ⟨hc1, hc2⟩ := hc'
  subst hc1 hc2
  have d1 := hD _ _ _ _ _ hm1
  have d2 := hD _ _ _ _ _ hm2
  simp only at h1 ⊢
  omega

/-- C30: nodes with positions at a constant propagation delay: in order, and (no device being attached twice)
what is received is a subsequence of what was sent. -/
theorem C30_constant_delay_in_order {E : Env} {s0 s : Sys} {ops : List Op} (h0 : Initial s0)
    (h : exec E s0 ops = .ok s) {src dst : DevId} {ns nd : NodeId} {D : Time}
    (hns : (s0.dev src).node = some ns) (hnd : (s0.dev dst).node = some nd)
    (m1 : E.hasMob ns = true) (m2 : E.hasMob nd = true)
    (hD : ∀ c, ∃ g, E.delay c = some g ∧ ∀ t, g ns nd t = D) :
    received src dst s.log ++ pendingRecv src dst s.pending = handed src dst s.log ∧
    ((∀ c, (s.chan c).link.Nodup) → (received src dst s.log).Sublist (begun src s.log)) := by
  have h1 : received src dst s.log ++ pendingRecv src dst s.pending = handed src dst s.log := by
    refine C30_in_order h0 h src dst (between_announced_pairwise (D := D) (logSorted_exec h0 h).1 ?_)
    intro t c f tx del hm
    obtain ⟨ns', nd', e1, e2, ⟨l1, _, _⟩, _⟩ := C26_delay_law h0 h hm
    rw [hns] at e1; injection e1 with e1; subst e1
    rw [hnd] at e2; injection e2 with e2; subst e2
    obtain ⟨g, hg, hgD⟩ := hD c
    rw [l1 m1 m2 g hg, hgD]
  refine ⟨h1, fun hl => ?_⟩
  have h2 := (C29_at_most_one_copy h0 h hl src dst).1
  rw [← h1] at h2
  exact (List.sublist_append_left _ _).trans h2

example : Demo.check farEnv Demo.sys (trafficRun 3)
    (fun s => (received 0 1 s.log).length == 2 && (begun 0 s.log).length == 2) = true := by decide +kernel

/-- C30: a node without position: delays are the transmission times, which differ from frame to frame;
still in order, because the next transmission begins only after the previous one ended. -/
theorem C30_no_position_in_order {E : Env} {s0 s : Sys} {ops : List Op} (h0 : Initial s0)
    (h : exec E s0 ops = .ok s) {src : DevId} (dst : DevId) {ns : NodeId} (hns : (s0.dev src).node = some ns)
    (m1 : E.hasMob ns = false) :
    received src dst s.log ++ pendingRecv src dst s.pending = handed src dst s.log ∧
    ((∀ c, (s.chan c).link.Nodup) → (received src dst s.log).Sublist (begun src s.log)) := by
  have h1 : received src dst s.log ++ pendingRecv src dst s.pending = handed src dst s.log := by
    refine C30_in_order h0 h src dst ?_
    have hser := serial_exec (src := src) h0 h (by
      intro t c f dst tx del hm
      obtain ⟨ns', nd', e1, e2, ⟨_, _, l3⟩, _⟩ := C26_delay_law h0 h hm
      rw [hns] at e1; injection e1 with e1; subst e1
      exact l3 (Or.inl m1))
    have : between src dst (announced s.log) =
        ((announced s.log).filter (fun a => decide (a.src = src))).filter (fun a => decide (a.dst = dst)) := by
      unfold between
      rw [List.filter_filter]
      congr 1
      funext a
      rw [Bool.and_comm]
    rw [this]
    exact hser.mono.filter _
  refine ⟨h1, fun hl => ?_⟩
  have h2 := (C29_at_most_one_copy h0 h hl src dst).1
  rw [← h1] at h2
  exact (List.sublist_append_left _ _).trans h2

example : Demo.check Demo.env Demo.sys (trafficRun 4)
    (fun s => (received 0 1 s.log).length == 2 && (begun 0 s.log).length == 3) = true := by decide +kernel

/-- A constant delay is needed: when the propagation delay shrinks by more than the time between two
transmissions, the later frame overtakes the earlier one. -/
theorem C30_shrinking_delay_reorders :
    ¬ ∀ (E : Env) (s0 s : Sys) (ops : List Op), Initial s0 → exec E s0 ops = .ok s → ∀ src dst,
      (received src dst s.log).Sublist (begun src s.log) := by
  intro hall
  obtain ⟨s, hs, ht⟩ := Demo.exists_of_check (E := movingEnv) (s := Demo.sys) (ops := trafficRun 7)
    (test := fun s => decide (¬ (received 0 1 s.log).Sublist (begun 0 s.log))) (by decide +kernel)
  rw [decide_eq_true_eq] at ht
  exact ht (hall _ _ _ _ Demo.sys_initial hs 0 1)

end Verif
