import Verif.Demo
import Verif.Lemmas.Queues
import Verif.Props.Device
/-! # C99, C100: queues as objects that can be replaced, shared and accessed by the user -/

namespace Verif
open Spec

/-- **C99**: whatever devices and users do with queue objects, each of them is first in first out and loses or duplicates nothing:
what was in it and what went into it is, in this order, what came out of it and what is still in it. -/
theorem C99_fifo {E : Env} {S S' : QSys} {l : List (QSys × QOp × QSys)} (h : Passes E S l S') (q : QueueId) :
    S.store q ++ allIn q l = allOut q l ++ S'.store q :=
  flow_passes h q

/-- **C99**: replacing, sharing and accessing queues at any time never makes an assertion of the transmitter fail, and never lets it
use a missing channel. -/
theorem C99_no_wrong_state {E : Env} {S : QSys} {ops : List QOp} {e : Fault} (h0 : Initial S.sys) (h : execQ E S ops = .fail e) :
    e ≠ .txNotReady ∧ e ≠ .txNotBusy ∧ e ≠ .noCurrentPacket ∧ e ≠ .nullChannel := by
  obtain ⟨pre, o, post, S1, _, h1, h2⟩ := execQ_fail h
  obtain ⟨p, rfl, h3⟩ := stepQ_op_fail h2
  obtain ⟨a, b, c, d, _⟩ := step_fail_tx (fun x => txInv_view.mpr (txInv_execQ h1 (txInv_initial h0 x))) h3
  exact ⟨a, b, c, d⟩

/-- **C99**: a null queue is used exactly by a device that has none, when it sends over a link that is up or finishes a frame. -/
theorem C99_null_queue {E : Env} {S : QSys} {ops : List QOp} (h0 : Initial S.sys) (h : execQ E S ops = .fail .nullQueue) :
    ∃ pre o post S1 d, ops = pre ++ .op o :: post ∧ execQ E S pre = .ok S1 ∧ S1.own d = none ∧
      ((∃ p dest proto, o = .send d p dest proto ∧ (S1.sys.dev d).linkUp = true) ∨
       (o = .run ∧ ∃ t dest ps, S1.sys.pending = ⟨t, .txComplete d dest⟩ :: ps)) := by
  obtain ⟨pre, o, post, S1, hops, h1, h2⟩ := execQ_fail h
  obtain ⟨p, rfl, h3⟩ := stepQ_op_fail h2
  obtain ⟨_, _, _, _, h4⟩ := step_fail_tx (fun x => txInv_view.mpr (txInv_execQ h1 (txInv_initial h0 x))) h3
  obtain ⟨d, ht, hq⟩ := h4 rfl
  refine ⟨pre, p, post, S1, d, hops, h1, ?_, ?_⟩
  · rw [devView_hasQueue] at hq
    simpa using hq
  · rw [toucher_view] at ht
    cases p with
    | send d' p dest proto =>
      injection ht with ht
      subst ht
      refine Or.inl ⟨_, _, _, rfl, ?_⟩
      rw [← (devView_eq S1 d').2.2.1]
      exact (send_fail h3).1
    | run =>
      refine Or.inr ⟨rfl, ?_⟩
      simp only [toucher] at ht
      split at ht
      · rename_i t d' dest ps hp
        injection ht with ht
        subst ht
        exact ⟨t, dest, ps, hp⟩
      · cases ht
    | _ => cases ht

/-- **C99**: a device has the queue it was given last, be it null; what is done to other devices and to queues does not change that. -/
theorem C99_last_given {E : Env} {S S' : QSys} {ops : List QOp} (h : execQ E S ops = .ok S') (d : DevId) :
    S'.own d = lastGiven d (S.own d) ops := by
  induction ops generalizing S with
  | nil => injection h with h; subst h; rfl
  | cons o ops ih =>
    simp only [execQ, Outcome.bind_eq_ok] at h
    obtain ⟨S1, h1, h2⟩ := h
    rw [ih h2]
    cases o with
    | op p =>
      simp only [stepQ, Outcome.bind_eq_ok] at h1
      obtain ⟨s', _, h1⟩ := h1
      injection h1 with h1
      subst h1
      rfl
    | setQueue x r =>
      injection h1 with h1
      subst h1
      simp only [lastGiven, eq_comm (a := d)]
    | put r f =>
      simp only [stepQ] at h1
      split at h1 <;> (injection h1 with h1; subst h1; rfl)
    | take r =>
      injection h1 with h1
      subst h1
      rfl

/-- **C99**: conversely, such a device does fail. -/
theorem C99_null_queue_used {E : Env} {S : QSys} {d : DevId} {p : Bytes} {m : Mac48} {proto : UInt16} (ho : S.own d = none)
    (hl : (S.sys.dev d).linkUp = true) : stepQ E S (.op (.send d p (.mac m) proto)) = .fail .nullQueue := by
  have hv := devView_none ho
  have h : step E S.view (.send d p (.mac m) proto) = .fail .nullQueue := by
    simp only [step, send, hv, hl]
    simp
  simp only [stepQ, h]
  rfl

/-- **C99**: on every device starts and ends of transmissions alternate, each end belongs to the frame that was started last, and the
transmitter is BUSY exactly while a frame has been started and not ended. -/
theorem C99_alternating {E : Env} {S S' : QSys} {ops : List QOp} (h0 : Initial S.sys) (h : execQ E S ops = .ok S') (d : DevId) :
    Alternating (phases d S'.sys.log) ∧ begun d S'.sys.log = ended d S'.sys.log ++ (S'.sys.dev d).cur.toList ∧
      ((S'.sys.dev d).busy = true ↔ begun d S'.sys.log ≠ ended d S'.sys.log) := by
  have hi := txInv_execQ h (txInv_initial h0 d)
  refine ⟨by rw [hi.phases]; exact alternating_of_flatMap _ _, hi.begun, ?_⟩
  rw [hi.begun]
  cases hb : (S'.sys.dev d).busy with
  | false => simp [(hi.ready hb).1]
  | true =>
    obtain ⟨f, hf⟩ := Option.isSome_iff_exists.mp (hi.busy hb).1
    simp [hf]

/-- **C99**: a queue that no device has and that the user leaves alone keeps its frames, whatever else happens: frames waiting in a
queue that was replaced are not transmitted and not reported as dropped. -/
theorem C99_stranded {E : Env} {S S' : QSys} {ops : List QOp} {q : QueueId} (hq : ∀ d, S.own d ≠ some q)
    (hops : ∀ o ∈ ops, ¬ handles q o) (h : execQ E S ops = .ok S') : S'.store q = S.store q ∧ ∀ d, S'.own d ≠ some q := by
  induction ops generalizing S with
  | nil => injection h with h; subst h; exact ⟨rfl, hq⟩
  | cons o ops ih =>
    simp only [execQ] at h
    rw [Outcome.bind_eq_ok] at h
    obtain ⟨S1, h1, h2⟩ := h
    have ho := hops o (by simp)
    have key : S1.store q = S.store q ∧ ∀ d, S1.own d ≠ some q := by
      cases o with
      | op o =>
        have hf := flow_step h1 q
        obtain ⟨s', l, _, rfl, hm⟩ := stepQ_op h1
        refine ⟨?_, hq⟩
        simp only [QSys.writeBack]
        cases toucher S.sys o with
        | none => rfl
        | some d =>
          cases hd : S.own d with
          | none => simp [hd]
          | some r =>
            have : ¬ q = r := by rintro rfl; exact hq d hd
            simp [hd, this]
      | setQueue d r =>
        simp only [stepQ] at h1; injection h1 with h1; subst h1
        refine ⟨rfl, fun x => ?_⟩
        by_cases hx : x = d
        · simpa [hx, handles] using ho
        · simpa [hx] using hq x
      | put r f =>
        have hr : ¬ q = r := fun hh => ho hh.symm
        simp only [stepQ] at h1; split at h1 <;> injection h1 with h1 <;> subst h1
        · exact ⟨by simp [hr], hq⟩
        · exact ⟨rfl, hq⟩
      | take r =>
        have hr : ¬ q = r := fun hh => ho hh.symm
        simp only [stepQ] at h1; injection h1 with h1; subst h1
        exact ⟨by simp [hr], hq⟩
    obtain ⟨h3, h4⟩ := ih key.2 (fun o ho => hops o (by simp [ho])) h2
    exact ⟨h3.trans key.1, h4⟩

/-- **C99**: as long as no two devices share a queue, the devices behave as if each had a queue of its own, as in Model/Net.lean: every
history has the same outcome, including faults. -/
theorem C99_refines {E : Env} {S : QSys} (hu : OneEach S) (ops : List Op) :
    (execQ E S (ops.map .op) >>= fun S' => .ok S'.view) = exec E S.view ops := by
  induction ops generalizing S with
  | nil => rfl
  | cons o ops ih =>
    simp only [List.map_cons, execQ, exec]
    cases hs : step E S.view o with
    | fail e =>
      have : stepQ E S (.op o) = .fail e := by simp only [stepQ, hs]; rfl
      rw [this]; rfl
    | ok s' =>
      have : stepQ E S (.op o) = .ok (S.writeBack s' (toucher S.sys o)) := by simp only [stepQ, hs]; rfl
      rw [this, Outcome.ok_bind, Outcome.ok_bind]
      have hu' : OneEach (S.writeBack s' (toucher S.sys o)) := hu
      rw [ih hu', view_writeBack hu hs]

/-- **C99**: in particular the model with one queue per device is the case of as many queue objects as devices. -/
theorem C99_own_queues {E : Env} {s : Sys} (hs : ∀ d, (s.dev d).hasQueue = false → (s.dev d).queue = []) (ops : List Op) :
    (execQ E (.ofSys s) (ops.map .op) >>= fun S' => .ok S'.view) = exec E s ops := by
  have hu : OneEach (.ofSys s) := by
    intro d d' q h1 h2
    simp only [QSys.ofSys] at h1 h2
    split at h1 <;> split at h2 <;> simp_all
  have hv : (QSys.ofSys s).view = s := by
    have : (QSys.ofSys s).devView = s.dev := by
      funext x
      cases hq : (s.dev x).hasQueue with
      | false =>
        have ho : (QSys.ofSys s).own x = none := by simp [QSys.ofSys, hq]
        simp only [QSys.devView, ho]
        have := hs x hq
        change { s.dev x with hasQueue := false, queue := [] } = _
        rw [← hq, ← this]
      | true =>
        have ho : (QSys.ofSys s).own x = some x := by simp [QSys.ofSys, hq]
        simp only [QSys.devView, ho]
        change { s.dev x with hasQueue := true, queue := (s.dev x).queue, cap := (s.dev x).cap } = _
        rw [← hq]
    simp only [QSys.view, this]
    rfl
  rw [C99_refines hu, hv]

/-! ### C100 -/

/-- **C100**: an idle device transmits nothing until somebody calls `Send` on it, whatever queue it is given and whatever is put
into its queue. -/
theorem C100_idle_waits {E : Env} {S0 S S' : QSys} {ops0 ops : List QOp} {d : DevId} (h0 : Initial S0.sys)
    (hr : execQ E S0 ops0 = .ok S) (hb : (S.sys.dev d).busy = false) (hn : NoSend d ops) (h : execQ E S ops = .ok S') :
    begun d S'.sys.log = begun d S.sys.log ∧ (S'.sys.dev d).busy = false := by
  have hp := ((txInv_execQ hr (txInv_initial h0 d)).ready hb).2
  clear hr
  induction ops generalizing S with
  | nil => injection h with h; subst h; exact ⟨rfl, hb⟩
  | cons o ops ih =>
    simp only [execQ] at h
    rw [Outcome.bind_eq_ok] at h
    obtain ⟨S1, h1, h2⟩ := h
    obtain ⟨a, b, c⟩ := idle_stepQ h1 (fun p dest proto he => hn p dest proto (by simp [he])) hb hp
    obtain ⟨i, j⟩ := ih a (fun p dest proto he => hn p dest proto (by simp [he])) h2 b
    exact ⟨i.trans c, j⟩

/-- **C100**: an accepted `Send` on an idle device puts the oldest frame of its queue on the air, with the destination of the new
packet, and the new frame goes to the end of the queue. -/
theorem C100_head_first {E : Env} {S S' : QSys} {d : DevId} {q : QueueId} {g : Bytes} {rest : List Bytes} {p : Bytes} {m : Mac48}
    {proto : UInt16} (hb : (S.sys.dev d).busy = false) (hl : (S.sys.dev d).linkUp = true) (ho : S.own d = some q)
    (hq : S.store q = g :: rest) (hroom : (S.store q).length < S.cap q)
    (h : stepQ E S (.op (.send d p (.mac m) proto)) = .ok S') :
    begun d (newLog S.sys S'.sys) = [g] ∧ (S.sys.now, .onAir d g (.mac m)) ∈ newLog S.sys S'.sys ∧
      ∃ f, S'.store q = rest ++ [f] ∧ (S.sys.now, .sendRet d p (.mac m) proto true f) ∈ newLog S.sys S'.sys := by
  obtain ⟨s', l, hs, rfl, hm⟩ := stepQ_op h
  have hlog : newLog S.sys (S.writeBack s' (toucher S.sys (.send d p (.mac m) proto))).sys = l := newLog_sys hm.log
  rw [hlog]
  have hml := hm.log
  have hv := devView_some ho
  simp only [step] at hs
  rcases send_ok hs with ⟨hl', _⟩ | ⟨_, _, m', _, f, hf, hcase⟩
  · rw [hv] at hl'; simp [hl] at hl'
  · rcases hcase with ⟨hlen, _⟩ | ⟨_, hb', _⟩ | ⟨_, _, g', rest', s3, hq', hts, hs3⟩
    · rw [hv] at hlen; exact absurd hroom hlen
    · rw [hv] at hb'; simp [hb] at hb'
    · rw [hv] at hq'
      simp only [hq, List.cons_append, List.cons.injEq] at hq'
      obtain ⟨rfl, rfl⟩ := hq'
      obtain ⟨_, c, src, rs, b, hchan, _, _, rfl⟩ := transmitStart_ok hts
      have ht := hm.own d rfl
      have hl2 : l = [(S.sys.now, .macTx d f), (S.sys.now, .promiscSniffer d g), (S.sys.now, .sniffer d g)] ++
          (([(S.sys.now, .phyTxBegin d g), (S.sys.now, .onAir d g (.mac m))]
        ++ (rs.map (Recv.entry S.sys.now c g src (E.txTime (S.view.dev d).rate g.length))
        ++ if b then [] else [(S.sys.now, .phyTxDrop d g)])) ++ [(S.sys.now, .sendRet d p (.mac m) proto true f)]) := by
        have := hml
        rw [hs3] at this
        simp only [txState, if_true] at this
        rw [List.append_assoc, List.append_assoc, List.append_cancel_left_eq] at this
        exact this.symm
      refine ⟨?_, by rw [hl2]; simp, f, ?_, by rw [hl2]; simp⟩
      · cases ht with
        | kept hk =>
          have := hk.busy
          rw [hs3, hv] at this
          simp [txState, hb] at this
        | queued f b => rw [hv] at b; simp [hb] at b
        | started f g' b b' c q n la lb le lp =>
          rw [hv] at q
          simp only [hq, List.cons_append, List.cons.injEq] at q
          rw [lb, ← q.1]
        | finished f b => rw [hv] at b; simp [hb] at b
        | next f g b => rw [hv] at b; simp [hb] at b
      · simp [QSys.writeBack, toucher, ho, hs3, txState]

/-- **C100**: an idle device whose queue is full is stuck: as long as only it uses the queue, every `Send` is refused for lack of room,
so that nothing is ever taken from the queue. -/
theorem C100_jammed {E : Env} {S0 S S' : QSys} {ops0 ops : List QOp} {d : DevId} {q : QueueId} (h0 : Initial S0.sys)
    (hr : execQ E S0 ops0 = .ok S) (hb : (S.sys.dev d).busy = false) (ho : S.own d = some q)
    (hx : ∀ x, x ≠ d → S.own x ≠ some q) (hfull : S.cap q ≤ (S.store q).length)
    (hops : ∀ o ∈ ops, ¬ handles q o ∧ ∀ r, o ≠ .setQueue d r) (h : execQ E S ops = .ok S') :
    begun d S'.sys.log = begun d S.sys.log ∧ accepted d S'.sys.log = accepted d S.sys.log ∧ S'.store q = S.store q ∧
      (S'.sys.dev d).busy = false := by
  have hp := ((txInv_execQ hr (txInv_initial h0 d)).ready hb).2
  clear hr
  induction ops generalizing S with
  | nil => injection h with h; subst h; exact ⟨rfl, rfl, rfl, hb⟩
  | cons o ops ih =>
    simp only [execQ] at h
    rw [Outcome.bind_eq_ok] at h
    obtain ⟨S1, h1, h2⟩ := h
    obtain ⟨hh, hset⟩ := hops o (by simp)
    have key : begun d S1.sys.log = begun d S.sys.log ∧ accepted d S1.sys.log = accepted d S.sys.log ∧ S1.store q = S.store q ∧
        (S1.sys.dev d).busy = false ∧ txcn d S1.sys.pending = 0 ∧ S1.own d = some q ∧ (∀ x, x ≠ d → S1.own x ≠ some q) ∧
        S1.cap q = S.cap q := by
      cases o with
      | op o =>
        obtain ⟨s', l, hs, rfl, hm⟩ := stepQ_op h1
        have hk : Untouched S.view s' l d := by
          by_cases ht : toucher S.sys o = some d
          · have hrun : o ≠ .run := by rintro rfl; exact not_toucher_idle hp ht
            have hturn := hm.own d ht
            cases o with
            | send d' p dest proto =>
              injection ht with ht
              subst ht
              rcases send_ok hs with ⟨_, rfl⟩ | ⟨_, _, m, _, f, hf, hcase⟩
              · have hl : l = [(S.view.now, .macTxDrop d' p), (S.view.now, .sendRet d' p dest proto false p)] :=
                  (List.append_cancel_left hm.log).symm
                exact ⟨rfl, rfl, rfl, rfl, by rw [hl]; exact ⟨rfl, rfl, rfl, rfl⟩⟩
              · rcases hcase with ⟨_, rfl⟩ | ⟨hlen, _⟩ | ⟨hlen, _⟩
                · have hl := (List.append_cancel_left hm.log).symm
                  exact ⟨rfl, rfl, rfl, rfl, by rw [hl]; exact ⟨rfl, rfl, rfl, rfl⟩⟩
                · rw [devView_some ho] at hlen; simp only at hlen; omega
                · rw [devView_some ho] at hlen; simp only at hlen; omega
            | run => exact absurd rfl hrun
            | _ => cases ht
          · exact hm.others d ht
        have hl : s'.log = S.sys.log ++ l := hm.log
        have a := hk.log.1
        have b := hk.log.2.1
        refine ⟨?_, ?_, ?_, hk.busy.trans ((devView_eq S d).1.trans hb), hk.pend.trans hp, ho, hx, rfl⟩
        · simp only [QSys.writeBack]; unfold begun at *; rw [hl, proj_append, b, List.append_nil]
        · simp only [QSys.writeBack]; unfold accepted at *; rw [hl, proj_append, a, List.append_nil]
        · simp only [QSys.writeBack]
          cases ht : toucher S.sys o with
          | none => rfl
          | some y =>
            by_cases hy : y = d
            · subst hy
              have := hk.queue
              rw [devView_some ho] at this
              simp [ho, this]
            · cases hoy : S.own y with
              | none => simp [hoy]
              | some r =>
                have : ¬ q = r := by rintro rfl; exact hx y hy hoy
                simp [hoy, this]
      | setQueue d' r =>
        have hd : ¬ d = d' := by rintro rfl; exact hset r rfl
        simp only [stepQ] at h1; injection h1 with h1; subst h1
        refine ⟨rfl, rfl, rfl, hb, hp, by simp [hd, ho], fun x hxd => ?_, rfl⟩
        by_cases hxx : x = d'
        · simpa [hxx, handles] using hh
        · simpa [hxx] using hx x hxd
      | put r f =>
        have hr : ¬ q = r := fun hhh => hh hhh.symm
        simp only [stepQ] at h1; split at h1 <;> injection h1 with h1 <;> subst h1
        · exact ⟨rfl, rfl, by simp [hr], hb, hp, ho, hx, rfl⟩
        · exact ⟨rfl, rfl, rfl, hb, hp, ho, hx, rfl⟩
      | take r =>
        have hr : ¬ q = r := fun hhh => hh hhh.symm
        simp only [stepQ] at h1; injection h1 with h1; subst h1
        exact ⟨rfl, rfl, by simp [hr], hb, hp, ho, hx, rfl⟩
    obtain ⟨k1, k2, k3, k4, k5, k6, k7, k8⟩ := key
    obtain ⟨i1, i2, i3, i4⟩ := ih k4 k6 k7 (by rw [k3, k8]; exact hfull) (fun o ho => hops o (by simp [ho])) h2 k5
    exact ⟨i1.trans k1, i2.trans k2, i3.trans k3, i4⟩

/-- **C100**: with queues that are not shared, given to devices empty or while they transmit, and filled by others only while
their device transmits, no frame waits at an idle device: a device with frames in its queue is transmitting and has its completion
scheduled. -/
theorem C100_waiting_is_busy_partial {E : Env} {S S' : QSys} {l : List (QSys × QOp × QSys)} (h0 : Initial S.sys)
    (hu : OneEach S) (he : ∀ d q, S.own d = some q → S.store q = []) (h : Passes E S l S')
    (hc : ∀ x ∈ l, Considerate x.1 x.2.1) {d : DevId} {q : QueueId} (ho : S'.own d = some q) (hq : S'.store q ≠ []) :
    (S'.sys.dev d).busy = true ∧ ∃ t dest, ⟨t, .txComplete d dest⟩ ∈ S'.sys.pending := by
  have hti : ∀ x, TxInv S.sys x := fun x => txInv_initial h0 x
  clear h0
  have hw : ∀ d q, S.own d = some q → (S.sys.dev d).busy = false → S.store q = [] := fun d q h _ => he d q h
  clear he
  induction h with
  | nil S =>
    have hb : (S.sys.dev d).busy = true := by
      by_contra hb
      exact hq (hw d q ho (by simpa using hb))
    refine ⟨hb, ?_⟩
    have hn := ((hti d).busy hb).2
    unfold txcn at hn
    have hne : txc d S.sys.pending ≠ [] := by intro hh; rw [hh] at hn; cases hn
    obtain ⟨a, ha⟩ := List.exists_mem_of_ne_nil _ hne
    unfold txc at ha
    obtain ⟨p, hp, hpa⟩ := List.mem_filterMap.mp ha
    obtain ⟨t, act⟩ := p
    cases act with
    | receive => cases hpa
    | txComplete d' dest =>
      simp only at hpa
      split at hpa
      · rename_i hd; subst hd; exact ⟨t, dest, hp⟩
      · cases hpa
  | @cons S S1 S2 o l hstep _ ih =>
    have hco := hc _ (List.mem_cons_self ..)
    simp only at hco
    refine ih ?_ (fun x hx => hc x (by simp [hx])) ho hq (fun x => txInv_stepQ hstep (hti x)) ?_
    · cases o with
      | op o => rw [OneEach, (own_stepQ hstep).1]; exact hu
      | setQueue d' r =>
        simp only [stepQ] at hstep; injection hstep with hstep; subst hstep
        intro a b q' ha hb'
        simp only at ha hb'
        cases r with
        | none =>
          split at ha
          · cases ha
          · split at hb'
            · cases hb'
            · exact hu a b q' ha hb'
        | some r =>
          split at ha
          · rename_i had
            split at hb'
            · rename_i hbd; rw [had, hbd]
            · rename_i hbd
              injection ha with ha; subst ha
              exact absurd hb' (hco.1 b hbd)
          · rename_i had
            split at hb'
            · injection hb' with hb'; subst hb'
              exact absurd ha (hco.1 a had)
            · exact hu a b q' ha hb'
      | put r f => simp only [stepQ] at hstep; split at hstep <;> injection hstep with hstep <;> subst hstep <;> exact hu
      | take r => simp only [stepQ] at hstep; injection hstep with hstep; subst hstep; exact hu
    · intro x r hxo hxb
      cases o with
      | op o =>
        rw [(own_stepQ hstep).1] at hxo
        obtain ⟨s', lg, hs, rfl, hm⟩ := stepQ_op hstep
        have hvw := view_writeBack hu hs
        have hsx : (S.writeBack s' (toucher S.sys o)).store r = (s'.dev x).queue := by
          have := devView_some (S := S.writeBack s' (toucher S.sys o)) hxo
          rw [hvw] at this
          rw [this]
        rw [hsx]
        have hxb' : (s'.dev x).busy = false := hxb
        have hb1 := (devView_eq S x).1
        by_cases ht : toucher S.sys o = some x
        · cases hm.own x ht with
          | kept hk =>
            rw [hk.queue, devView_some hxo]
            exact hw x r hxo (by rw [← hb1, ← hk.busy]; exact hxb')
          | queued f b b' => rw [b'] at hxb'; cases hxb'
          | started f g b b' => rw [b'] at hxb'; cases hxb'
          | finished f b b' c c' q q' => exact q'
          | next f g b b' => rw [b'] at hxb'; cases hxb'
        · have hk := hm.others x ht
          rw [hk.queue, devView_some hxo]
          exact hw x r hxo (by rw [← hb1, ← hk.busy]; exact hxb')
      | setQueue d' r' =>
        simp only [stepQ] at hstep; injection hstep with hstep; subst hstep
        simp only at hxo hxb ⊢
        split at hxo
        · rename_i hxd
          subst hxo
          rcases hco.2 with h1 | h1
          · exact h1
          · rw [hxd, h1] at hxb; cases hxb
        · exact hw x r hxo hxb
      | put r' f =>
        simp only [stepQ] at hstep; split at hstep <;> injection hstep with hstep <;> subst hstep
        · simp only at hxo hxb ⊢
          by_cases hr : r = r'
          · subst hr
            have := hco x hxo
            rw [hxb] at this; cases this
          · simpa [hr] using hw x r hxo hxb
        · exact hw x r hxo hxb
      | take r' =>
        simp only [stepQ] at hstep; injection hstep with hstep; subst hstep
        simp only at hxo hxb ⊢
        by_cases hr : r = r'
        · subst hr; simp [hw x r hxo hxb]
        · simpa [hr] using hw x r hxo hxb

/-! ### Counterexamples -/

/-- The fault of a history with queue objects, if there is one. -/
def Demo.faultQ (S : QSys) (ops : List QOp) : Option Fault :=
  match execQ Demo.env S ops with
  | .ok _ => none
  | .fail e => some e

/-- A decidable test of the final state of a history with queue objects. -/
def Demo.checkQ (S : QSys) (ops : List QOp) (test : QSys → Bool) : Bool :=
  match execQ Demo.env S ops with
  | .ok S' => test S'
  | .fail _ => false

theorem Demo.checkQ_ok {S : QSys} {ops : List QOp} {test : QSys → Bool} (h : Demo.checkQ S ops test = true) :
    ∃ S', execQ Demo.env S ops = .ok S' ∧ test S' = true := by
  unfold Demo.checkQ at h
  split at h
  · rename_i S' hS; exact ⟨S', hS, h⟩
  · cases h

theorem Demo.faultQ_fail {S : QSys} {ops : List QOp} {e : Fault} (h : Demo.faultQ S ops = some e) :
    execQ Demo.env S ops = .fail e := by
  unfold Demo.faultQ at h
  split at h
  · cases h
  · rename_i e' he; injection h with h; subst h; exact he

/-- The devices of the demonstration, each with a queue object of its own. -/
def Demo.queues : QSys := .ofSys Demo.sys

/-- The devices of the demonstration, all with queue object 0. -/
def Demo.oneQueue : QSys := { Demo.queues with own := fun _ => some 0 }

/-- Claim: a device with its link up and frames in its queue is transmitting. -/
def GetsGoing (E : Env) : Prop :=
  ∀ S0 ops S d q, Initial S0.sys → OneEach S0 → execQ E S0 ops = .ok S → S.own d = some q → S.store q ≠ [] →
    (S.sys.dev d).linkUp = true → (S.sys.dev d).busy = true

/-- **C100 is false of the code**: a queue with a frame in it is given to an idle device. -/
theorem C100_gets_going_false : ¬ GetsGoing Demo.env := by
  intro hc
  have h : Demo.checkQ Demo.queues [.op (.attach 0 0), .put 7 [1, 2, 3], .setQueue 0 (some 7)] (fun S =>
      decide (S.own 0 = some 7) && decide (S.store 7 ≠ []) && (S.sys.dev 0).linkUp && !(S.sys.dev 0).busy) = true := by
    decide +kernel
  obtain ⟨S, h1, h2⟩ := Demo.checkQ_ok h
  simp only [Bool.and_eq_true, decide_eq_true_eq, Bool.not_eq_true'] at h2
  have hu : OneEach Demo.queues := by
    intro d d' q h1 h2
    simp only [Demo.queues, QSys.ofSys] at h1 h2
    split at h1 <;> split at h2 <;> simp_all
  have := hc _ _ S 0 7 Demo.sys_initial hu h1 h2.1.1.1 h2.1.1.2 h2.1.2
  rw [h2.2] at this
  cases this

/-- Claim: what a device puts on the air was sent on this device. -/
def SendsItsOwn (E : Env) : Prop :=
  ∀ S0 ops S d, Initial S0.sys → (∀ q, S0.store q = []) → (∀ o ∈ ops, ∃ p, o = .op p) → execQ E S0 ops = .ok S →
    ∀ f ∈ begun d S.sys.log, f ∈ accepted d S.sys.log

/-- **C100 is false of the code**: two devices with the same queue; the second transmits a frame accepted by the first, to the
destination of its own packet. -/
theorem C100_sends_its_own_false : ¬ SendsItsOwn Demo.env := by
  intro hc
  have h : Demo.checkQ Demo.oneQueue [.op (.attach 0 0), .op (.attach 2 0), .op (.attach 1 0),
      .op (.send 0 [1] (.mac (Demo.mac 2)) 2048), .op (.send 0 [2] (.mac (Demo.mac 2)) 2048),
      .op (.send 2 [3] (.mac (Demo.mac 4)) 2048)] (fun S =>
      !(begun 2 S.sys.log).all (fun f => (accepted 2 S.sys.log).contains f)) = true := by
    decide +kernel
  obtain ⟨S, h1, h2⟩ := Demo.checkQ_ok h
  have := hc Demo.oneQueue _ S 2 Demo.sys_initial (fun q => (Demo.sys_initial.idle q).2.2.1) (by simp) h1
  have h3 : (begun 2 S.sys.log).all (fun f => (accepted 2 S.sys.log).contains f) = true := by
    rw [List.all_eq_true]
    intro f hf
    simpa using this f hf
  rw [h3] at h2
  cases h2

/-- **C100**: what is put into a queue is not checked; a receiver of bytes that are no frame fails. -/
theorem C100_not_a_frame : execQ Demo.env Demo.queues [.op (.attach 0 0), .op (.attach 1 0), .put 0 [1, 2, 3],
    .op (.send 0 [1] (.mac (Demo.mac 2)) 2048), .op .run, .op .run] = .fail .packetTooShort :=
  Demo.faultQ_fail (by decide +kernel)

/-! ### Examples -/

/-- A history with the states it passes through. -/
def Demo.trail : QSys → List QOp → List (QSys × QOp × QSys) × Option QSys
  | S, [] => ([], some S)
  | S, o :: ops =>
    match stepQ Demo.env S o with
    | .ok S' => ((S, o, S') :: (Demo.trail S' ops).1, (Demo.trail S' ops).2)
    | .fail _ => ([], none)

theorem Demo.trail_passes {S S' : QSys} {ops : List QOp} (h : (Demo.trail S ops).2 = some S') :
    Passes Demo.env S (Demo.trail S ops).1 S' := by
  induction ops generalizing S with
  | nil => injection h with h; subst h; exact .nil _
  | cons o ops ih =>
    simp only [Demo.trail] at h ⊢
    split at h
    · rename_i S1 hS; exact .cons hS (ih h)
    · cases h

/-- Device 0 sends twice, its queue is replaced, it sends twice more, and gets its first queue back. -/
def Demo.swap : List QOp := [.op (.attach 0 0), .op (.attach 1 0), .op (.send 0 [1] (.mac (Demo.mac 2)) 2048),
  .op (.send 0 [2] (.mac (Demo.mac 2)) 2048), .setQueue 0 (some 9), .op (.send 0 [3] (.mac (Demo.mac 2)) 2048),
  .put 0 [4], .op .run, .op .run, .setQueue 0 (some 0), .op .run]

example : ∃ l S', Passes Demo.env Demo.queues l S' ∧ (allIn 0 l).length = 3 ∧ (allOut 0 l).length = 2 ∧
    (S'.store 0).length = 1 := by
  have h : (Demo.trail Demo.queues Demo.swap).2.any (fun S' => decide ((allIn 0 (Demo.trail Demo.queues Demo.swap).1).length = 3) &&
      decide ((allOut 0 (Demo.trail Demo.queues Demo.swap).1).length = 2) && decide ((S'.store 0).length = 1)) = true := by
    decide +kernel
  rw [Option.any_eq_true] at h
  obtain ⟨S', h1, h2⟩ := h
  simp only [Bool.and_eq_true, decide_eq_true_eq] at h2
  exact ⟨_, S', Demo.trail_passes h1, h2.1.1, h2.1.2, h2.2⟩

/-- A null queue while a frame is on the air: the completion of the frame fails. -/
example : Initial Demo.queues.sys ∧ execQ Demo.env Demo.queues [.op (.attach 0 0), .op (.attach 1 0),
    .op (.send 0 [1] (.mac (Demo.mac 2)) 2048), .setQueue 0 none, .op .run, .op .run] = .fail .nullQueue :=
  ⟨Demo.sys_initial, Demo.faultQ_fail (by decide +kernel)⟩

example : ∃ S', execQ Demo.env Demo.queues [.op (.attach 0 0), .setQueue 0 none] = .ok S' ∧ S'.own 0 = none ∧
    (S'.sys.dev 0).linkUp = true := by
  obtain ⟨S', h1, h2⟩ := Demo.checkQ_ok (S := Demo.queues) (ops := [.op (.attach 0 0), .setQueue 0 none])
    (test := fun S => decide (S.own 0 = none) && (S.sys.dev 0).linkUp) (by decide +kernel)
  simp only [Bool.and_eq_true, decide_eq_true_eq] at h2
  exact ⟨S', h1, h2⟩

example : Initial Demo.queues.sys ∧ ∃ S', execQ Demo.env Demo.queues Demo.swap = .ok S' ∧ (phases 0 S'.sys.log).length = 5 := by
  obtain ⟨S', h1, h2⟩ := Demo.checkQ_ok (S := Demo.queues) (ops := Demo.swap)
    (test := fun S => decide ((phases 0 S.sys.log).length = 5)) (by decide +kernel)
  exact ⟨Demo.sys_initial, S', h1, by simpa using h2⟩

/-- A queue with a frame in it that was replaced. -/
example : ∃ S S', (∀ d, S.own d ≠ some 0) ∧ S.store 0 ≠ [] ∧ execQ Demo.env S [.op .run, .op .run,
    .op (.send 0 [5] (.mac (Demo.mac 2)) 2048), .op .run] = .ok S' ∧ (begun 0 S'.sys.log).length = 2 := by
  have h : Demo.checkQ { Demo.queues with own := fun d => if d = 0 then some 0 else none } (Demo.swap.take 5) (fun S =>
      decide (S.store 0 ≠ []) && Demo.checkQ { S with own := fun d => if d = 0 then some 9 else none } [.op .run, .op .run,
        .op (.send 0 [5] (.mac (Demo.mac 2)) 2048), .op .run] (fun S' => decide ((begun 0 S'.sys.log).length = 2))) = true := by
    decide +kernel
  obtain ⟨S, _, h2⟩ := Demo.checkQ_ok h
  simp only [Bool.and_eq_true, decide_eq_true_eq] at h2
  obtain ⟨S', h3, h4⟩ := Demo.checkQ_ok h2.2
  refine ⟨{ S with own := fun d => if d = 0 then some 9 else none }, S', ?_, h2.1, h3, by simpa using h4⟩
  intro d
  simp only
  split <;> simp

example : OneEach Demo.queues ∧ ∀ d, (Demo.sys.dev d).hasQueue = false → (Demo.sys.dev d).queue = [] := by
  refine ⟨?_, fun d _ => (Demo.sys_initial.idle d).2.2.1⟩
  intro d d' q h1 h2
  simp only [Demo.queues, QSys.ofSys] at h1 h2
  split at h1 <;> split at h2 <;> simp_all

/-- An idle device with frames waiting. -/
example : ∃ S S', execQ Demo.env Demo.queues [.op (.attach 0 0), .op (.attach 1 0), .put 0 [4], .put 0 [5]] = .ok S ∧
    (S.sys.dev 0).busy = false ∧ S.own 0 = some 0 ∧ S.cap 0 ≤ (S.store 0).length ∧
    execQ Demo.env S [.op (.send 0 [1] (.mac (Demo.mac 2)) 2048), .op (.send 1 [1] (.mac (Demo.mac 1)) 2048), .op .run] = .ok S' := by
  have h : Demo.checkQ Demo.queues [.op (.attach 0 0), .op (.attach 1 0), .put 0 [4], .put 0 [5]] (fun S =>
      !(S.sys.dev 0).busy && decide (S.own 0 = some 0) && decide (S.cap 0 ≤ (S.store 0).length) &&
      Demo.checkQ S [.op (.send 0 [1] (.mac (Demo.mac 2)) 2048), .op (.send 1 [1] (.mac (Demo.mac 1)) 2048), .op .run]
        (fun _ => true)) = true := by decide +kernel
  obtain ⟨S, h1, h2⟩ := Demo.checkQ_ok h
  simp only [Bool.and_eq_true, decide_eq_true_eq, Bool.not_eq_true'] at h2
  obtain ⟨S', h3, _⟩ := Demo.checkQ_ok h2.2
  exact ⟨S, S', h1, h2.1.1.1, h2.1.1.2, h2.1.2, h3⟩

example : ∃ S g S', (S.sys.dev 0).busy = false ∧ (S.sys.dev 0).linkUp = true ∧ S.own 0 = some 0 ∧ S.store 0 = [g] ∧
    (S.store 0).length < S.cap 0 ∧ stepQ Demo.env S (.op (.send 0 [1] (.mac (Demo.mac 2)) 2048)) = .ok S' := by
  have h : Demo.checkQ Demo.queues [.op (.attach 0 0), .op (.attach 1 0), .put 0 [4]] (fun S =>
      !(S.sys.dev 0).busy && (S.sys.dev 0).linkUp && decide (S.own 0 = some 0) && decide (S.store 0 = [[4]]) &&
      decide ((S.store 0).length < S.cap 0) &&
      (match stepQ Demo.env S (.op (.send 0 [1] (.mac (Demo.mac 2)) 2048)) with
        | .ok _ => true
        | .fail _ => false)) = true := by decide +kernel
  obtain ⟨S, h1, h2⟩ := Demo.checkQ_ok h
  simp only [Bool.and_eq_true, decide_eq_true_eq, Bool.not_eq_true'] at h2
  obtain ⟨⟨⟨⟨⟨a, b⟩, c⟩, d⟩, e⟩, f⟩ := h2
  split at f
  · rename_i S' hS; exact ⟨S, _, S', a, b, c, d, e, hS⟩
  · cases f

/-- A considerate history: a queue is replaced while its device transmits. -/
example : ∃ S l S', Initial S.sys ∧ OneEach S ∧ (∀ d q, S.own d = some q → S.store q = []) ∧ Passes Demo.env S l S' ∧
    (∀ x ∈ l, Considerate x.1 x.2.1) ∧ S'.own 0 = some 9 ∧ S'.store 9 ≠ [] := by
  obtain ⟨S2, h2, k2⟩ := Demo.checkQ_ok (S := { Demo.queues with own := fun d => if d = 0 then some 0 else none })
    (ops := [.op (.attach 0 0), .op (.send 0 [1] (.mac (Demo.mac 2)) 2048)])
    (test := fun S => (S.sys.dev 0).busy && Demo.checkQ S [.setQueue 0 (some 9), .op (.send 0 [2] (.mac (Demo.mac 2)) 2048)]
        (fun S' => decide (S'.own 0 = some 9) && decide (S'.store 9 ≠ []))) (by decide +kernel)
  simp only [Bool.and_eq_true] at k2
  obtain ⟨S4, h4, k4⟩ := Demo.checkQ_ok k2.2
  simp only [Bool.and_eq_true, decide_eq_true_eq] at k4
  simp only [execQ] at h2 h4
  rw [Outcome.bind_eq_ok] at h2 h4
  obtain ⟨S1, h1, h2⟩ := h2
  obtain ⟨S3, h3, h4⟩ := h4
  rw [Outcome.bind_eq_ok] at h2 h4
  obtain ⟨T2, h2, e2⟩ := h2
  obtain ⟨T4, h4, e4⟩ := h4
  injection e2 with e2
  injection e4 with e4
  subst e2 e4
  refine ⟨_, _, _, Demo.sys_initial, ?_, ?_, .cons h1 (.cons h2 (.cons h3 (.cons h4 (.nil _)))), ?_, k4.1, k4.2⟩
  · intro d d' q h1 h2
    simp only at h1 h2
    split at h1 <;> split at h2 <;> simp_all
  · intro d q _
    exact (Demo.sys_initial.idle q).2.2.1
  · have ho : T2.own = fun d => if d = 0 then some 0 else none := (own_stepQ h2).1.trans (own_stepQ h1).1
    intro x hx
    simp only [List.mem_cons, List.not_mem_nil, or_false] at hx
    rcases hx with rfl | rfl | rfl | rfl
    · trivial
    · trivial
    · refine ⟨fun x hx => ?_, Or.inr k2.1⟩
      simp only [ho, hx, if_false]
      simp
    · trivial

example : lastGiven 1 (some 1) [.put 1 [7], .setQueue 2 (some 4), .setQueue 1 none, .take 4] = none ∧
    lastGiven 2 (some 2) [.put 1 [7], .setQueue 2 (some 4), .setQueue 1 none, .take 4] = some 4 := ⟨rfl, rfl⟩

end Verif
