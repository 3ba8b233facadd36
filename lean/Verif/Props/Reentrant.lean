import Verif.Lemmas.Reentrant
import Verif.Demo
import Verif.Props.Device
/-!
# Calls of `Send` from trace sinks and callbacks (C70)

Histories are arbitrary finite sequences of operations in which every call of `Send` and every event may
give rise to further calls of `Send`, nested to any depth, from the code connected to the trace sources
and callbacks of the devices.
-/

namespace Verif
open Spec

/-- **C70 (partial).** No assertion of the transmit path fails and the channel is never missing, whatever
calls of `Send` connected code makes, as long as no `Send` on a device is made while the Dequeue trace of its
queue, a sniffer trace of its transmit path or its PhyTxEnd trace fires.  The restriction is needed:
`C70_sniffer_send_is_fatal`, `C70_next_frame_send_is_fatal`, `C70_phyTxEnd_send_is_fatal`. -/
theorem C70_nested_calls_no_assertion_partial {E : Env} {s0 : Sys} {ops : List ROp} {e : Fault} (h0 : Initial s0)
    (hok : HistOk E s0 ops) (h : execR E s0 ops = .fail e) :
    e ≠ .txNotReady ∧ e ≠ .txNotBusy ∧ e ≠ .noCurrentPacket ∧ e ≠ .nullChannel := by
  have := execR_tri (rinv_initial h0) hok
  rw [h] at this
  exact this

/-- **C70 (partial).** Under the same restriction, every frame accepted by `Send` is put on the air or
waits, exactly once; transmissions begin and end alternately; an idle device has nothing waiting. -/
theorem C70_nested_calls_exactly_once_partial {E : Env} {s0 s : Sys} {ops : List ROp} (h0 : Initial s0)
    (hok : HistOk E s0 ops) (h : execR E s0 ops = .ok s) (d : DevId) :
    (accepted d s.log).Perm (begun d s.log ++ (s.dev d).queue) ∧ Alternating (phases d s.log) ∧
      ((s.dev d).busy = false → (s.dev d).queue = []) := by
  have ht := execR_tri (rinv_initial h0) hok
  rw [h] at ht
  obtain ⟨hi, hg⟩ := ht
  have hd := hi d (by simp)
  refine ⟨?_, ?_, fun hb => (hd.ready hb).2.1.mpr rfl⟩
  · obtain ⟨l, m, h1, h2, h3⟩ := hg d
    obtain ⟨_, _, hq, _⟩ := h0.idle d
    simp only [view, h0.log, hq, accepted, begun, proj_nil, List.nil_append] at h1 h2
    simp only [accepted, begun, h1, h2]
    exact h3.symm
  · have := hd.ph
    simp only [view] at this
    rw [this]
    exact alternating_of_flatMap _ _

/-- **C70 (partial).** Under the same restriction frames leave in the order in which they entered the
queue: what has been put on the air followed by what waits only ever grows at its end. -/
theorem C70_nested_calls_fifo_partial {E : Env} {s0 s s' : Sys} {ops1 ops2 : List ROp} (h0 : Initial s0)
    (hok1 : HistOk E s0 ops1) (h1 : execR E s0 ops1 = .ok s)
    (hok2 : HistOk E s ops2) (h2 : execR E s ops2 = .ok s') (d : DevId) :
    begun d s.log ++ (s.dev d).queue <+: begun d s'.log ++ (s'.dev d).queue := by
  have ht := execR_tri (rinv_initial h0) hok1
  rw [h1] at ht
  have ht2 := execR_tri ht.1 hok2
  rw [h2] at ht2
  obtain ⟨l, m, h3, _⟩ := ht2.2 d
  exact ⟨l, h3.symm⟩

/-- **C70 (partial).** Under the same restriction, when no events are pending every accepted frame has
been transmitted. -/
theorem C70_nested_calls_all_sent_partial {E : Env} {s0 s : Sys} {ops : List ROp} (h0 : Initial s0)
    (hok : HistOk E s0 ops) (h : execR E s0 ops = .ok s) (hp : s.pending = []) (d : DevId) :
    (accepted d s.log).Perm (ended d s.log) := by
  have hp1 := (C70_nested_calls_exactly_once_partial h0 hok h d).1
  have ht := execR_tri (rinv_initial h0) hok
  rw [h] at ht
  have hd := ht.1 d (by simp)
  have hb : (s.dev d).busy = false := by
    cases hb : (s.dev d).busy with
    | false => rfl
    | true =>
      have := (hd.busy hb).2
      simp [view, hp, txc] at this
  obtain ⟨hc, hq, _⟩ := hd.ready hb
  have hq := hq.mpr rfl
  have hbeg := hd.beg
  simp only [view] at hc hq hbeg
  rw [hq, hbeg, hc] at hp1
  simpa using hp1

/-- **C70.** Code connected to the Dequeue trace of the queue or to a sniffer trace of the transmit path must
not call `Send` on the device: if the device is idle and attached and has queue space, the outer `Send` does
not return. -/
theorem C70_sniffer_send_is_fatal {E : Env} {s0 s : Sys} {ops : List ROp} (h0 : Initial s0)
    (hok : HistOk E s0 ops) (h : execR E s0 ops = .ok s) {d : DevId}
    (hl : (s.dev d).linkUp = true) (hb : (s.dev d).busy = false) (hcap : 0 < (s.dev d).cap)
    (p p' : Bytes) (dest dest' : Addr) (proto proto' : UInt16) {k : Hook}
    (hk : k = .dequeue ∨ k = .sniffer ∨ k = .promiscSniffer) :
    ∃ e, sendR E (.mk d p dest proto (.cons k (.mk d p' dest' proto' .nil) .nil)) s = .fail e := by
  have ht := execR_tri (rinv_initial h0) hok
  rw [h] at ht
  exact sniffer_reentry hk ht.1 hl hb hcap

/-- **C70.** The same holds when a completion starts the next frame: if a frame is waiting and the link is up,
a `Send` on the device from the Dequeue trace of its queue (where flow control wakes the sender) or from a
sniffer keeps the completion from returning. -/
theorem C70_next_frame_send_is_fatal {E : Env} {s0 s : Sys} {ops : List ROp} (h0 : Initial s0)
    (hok : HistOk E s0 ops) (h : execR E s0 ops = .ok s) {d : DevId} {t : Time} {dest : Addr} {ps : List Pending}
    (hp : s.pending = ⟨t, .txComplete d dest⟩ :: ps) (hl : (s.dev d).linkUp = true)
    (hq : (s.dev d).queue ≠ []) (p' : Bytes) (dest' : Addr) (proto' : UInt16) {k : Hook}
    (hk : k = .dequeue ∨ k = .sniffer ∨ k = .promiscSniffer) :
    ∃ e, runR E (.cons k (.mk d p' dest' proto' .nil) .nil) s = .fail e := by
  have ht := execR_tri (rinv_initial h0) hok
  rw [h] at ht
  unfold runR
  rw [hp]
  exact complete_reentry (s := { s with now := t, pending := ps }) hk hl hq (ht.1 d (by simp)).cap

/-- **C70.** Code connected to PhyTxEnd must not call `Send` on the device: if the link is up and the queue
has room, the completion does not return, or it leaves the device busy with `m_currentPkt` zero and a
completion scheduled, which will fail. -/
theorem C70_phyTxEnd_send_is_fatal {E : Env} {s s' : Sys} {d : DevId} {t : Time} {dest : Addr} {ps : List Pending}
    (hp : s.pending = ⟨t, .txComplete d dest⟩ :: ps) (hl : (s.dev d).linkUp = true)
    (hcap : (s.dev d).queue.length < (s.dev d).cap) (p' : Bytes) (dest' : Addr) (proto' : UInt16)
    (h : runR E (.cons .phyTxEnd (.mk d p' dest' proto' .nil) .nil) s = .ok s') :
    (s'.dev d).busy = true ∧ (s'.dev d).cur = none ∧ (∃ q ∈ s'.pending, q.act = .txComplete d dest') ∧
      ∀ (s2 : Sys) (a : Addr), s2.dev d = s'.dev d → transmitComplete E s2 d a = .fail .noCurrentPacket := by
  unfold runR at h
  rw [hp] at h
  simp only at h
  have hb : (s.dev d).busy = true := by
    cases hb : (s.dev d).busy with
    | true => rfl
    | false => rw [transmitCompleteK, if_pos (by simp [hb])] at h; cases h
  have hc : ∃ f, (s.dev d).cur = some f := by
    cases hc : (s.dev d).cur with
    | some f => exact ⟨f, rfl⟩
    | none => rw [transmitCompleteK, if_neg (by simp [hb])] at h; simp only [hc] at h; cases h
  obtain ⟨f, hc⟩ := hc
  obtain ⟨h1, h2, h3⟩ := phyTxEnd_reentry (s := { s with now := t, pending := ps }) hb hc hl hcap h
  refine ⟨h1, h2, h3, ?_⟩
  intro s2 a hs2
  simp [transmitComplete, hs2, h1, h2]

/-- **C70.** Without nested calls the functions of this part are those of the rest of the model. -/
theorem C70_without_nested_calls (E : Env) (s : Sys) :
    (∀ d p dest proto, sendR E (.mk d p dest proto .nil) s = step E s (.send d p dest proto)) ∧
      runR E .nil s = step E s .run :=
  ⟨fun _ _ _ _ => sendR_nil _ _ _ _ _ _, runR_nil _ _⟩

/-- **C70.** A program that forwards packets from the receive callback does what some program without
nested calls does: everything proved about histories of plain operations holds for it. -/
theorem C70_forwarding_is_plain {E : Env} {s : Sys} {ops : List ROp} (h : ∀ op ∈ ops, forwardOp op = true) :
    ∃ ops' : List Op, execR E s ops = exec E s ops' := execR_leaf h

/-! ## Examples -/

namespace Demo

/-- Result test for histories with nested calls. -/
def checkR (E : Env) (s : Sys) (ops : List ROp) (test : Sys → Bool) : Bool :=
  match execR E s ops with
  | .ok s' => test s'
  | .fail _ => false

/-- The fault of a history with nested calls. -/
def faultR (E : Env) (s : Sys) (ops : List ROp) : Option Fault :=
  match execR E s ops with
  | .ok _ => none
  | .fail e => some e

theorem execR_of_faultR {E : Env} {s : Sys} {ops : List ROp} {e : Fault} (h : faultR E s ops = some e) :
    execR E s ops = .fail e := by
  unfold faultR at h
  split at h
  · cases h
  · rename_i e' he
    injection h with h
    rw [he, h]

/-- All nested calls are harmless, by evaluation. -/
def histOk (E : Env) : Sys → List ROp → Bool
  | _, [] => true
  | s, op :: ops => opOk s op && match stepR E s op with
    | .ok s' => histOk E s' ops
    | .fail _ => true

theorem histOk_sound {E : Env} {ops : List ROp} {s : Sys} (h : histOk E s ops = true) : HistOk E s ops := by
  induction ops generalizing s with
  | nil => intro pre op post s' hpre; simp at hpre
  | cons o ops ih =>
    rw [histOk, Bool.and_eq_true] at h
    intro pre op post s' hpre hex
    cases pre with
    | nil =>
      simp only [List.nil_append, List.cons.injEq] at hpre
      injection hex with hex
      rw [← hpre.1, ← hex]; exact h.1
    | cons q pre =>
      simp only [List.cons_append, List.cons.injEq] at hpre
      obtain ⟨rfl, rfl⟩ := hpre
      simp only [execR] at hex
      cases hs : stepR E s o with
      | fail e => rw [hs] at hex; cases hex
      | ok s1 =>
        rw [hs] at hex
        simp only [hs] at h
        exact ih h.2 pre op post s' rfl hex

end Demo

/-- Sends nested three deep at harmless hooks, on the same and on the other device, and a forwarding
receive callback. -/
def nestedOps : List ROp :=
  let to1 := Addr.mac (Demo.mac 2)
  let to0 := Addr.mac (Demo.mac 1)
  [.plain (.attach 0 0), .plain (.attach 1 0),
   .call (.mk 0 [1] to1 0x0800
     (.cons .macTx (.mk 0 [2] to1 0x0800 (.cons .phyTxBegin (.mk 0 [3] to1 0x0800 .nil) .nil))
     (.cons .macTxDrop (.mk 1 [4] to0 0x0800 (.cons .sniffer (.mk 3 [5] to0 0x0800 .nil) .nil)) .nil))),
   .run (.cons .sniffer (.mk 1 [7] to0 0x0800 .nil) .nil),
   .run (.cons .rxCallback (.mk 1 [6] to0 0x0800 .nil) .nil), .run .nil, .run .nil, .run .nil, .run .nil, .run .nil,
   .run .nil, .run .nil, .run .nil, .run .nil, .run .nil, .run .nil]

/-- The hypotheses are met by this history, and it transmits frames of both devices. -/
example : HistOk Demo.env Demo.sys nestedOps ∧ Demo.checkR Demo.env Demo.sys nestedOps (fun s =>
    s.pending.isEmpty && (ended 0 s.log).length == 3 && (ended 1 s.log).length == 2 &&
      decide (accepted 0 s.log ≠ ended 0 s.log)) = true :=
  ⟨Demo.histOk_sound (by decide +kernel), by decide +kernel⟩

/-- A sink of the Enqueue trace of the queue that calls `Send` on the same device, which is idle: the inner
call transmits the frame of the outer one. -/
def enqueueOps : List ROp :=
  [.plain (.attach 0 0), .plain (.attach 1 0),
   .call (.mk 0 [1] (.mac (Demo.mac 2)) 0x0800
     (.cons .enqueue (.mk 0 [2] (.mac (Demo.mac 2)) 0x0800 .nil)
     (.cons .enqueue (.mk 0 [3] (.mac (Demo.mac 2)) 0x0800
       (.cons .enqueue (.mk 0 [4] (.mac (Demo.mac 2)) 0x0800
         (.cons .queueDrop (.mk 1 [5] (.mac (Demo.mac 1)) 0x0800 .nil) .nil)) .nil)) .nil))),
   .run .nil, .run .nil, .run .nil, .run .nil, .run .nil, .run .nil, .run .nil, .run .nil]

/-- The hypotheses are met by this history: three of the four frames fit, and they leave in the order in which
they entered the queue although the calls returned in another order. -/
example : HistOk Demo.env Demo.sys enqueueOps ∧ Demo.checkR Demo.env Demo.sys enqueueOps (fun s =>
    s.pending.isEmpty && (ended 0 s.log).length == 3 && (ended 1 s.log).length == 1 &&
      decide ((ended 0 s.log).map (fun f => f[22]?) = [some 1, some 2, some 3]) &&
      decide ((accepted 0 s.log).map (fun f => f[22]?) = [some 2, some 3, some 1])) = true :=
  ⟨Demo.histOk_sound (by decide +kernel), by decide +kernel⟩

/-- A sink of the Dequeue trace of the queue that calls `Send` on the same device when a completion starts the
next frame. -/
def dequeueOps : List ROp :=
  [.plain (.attach 0 0), .plain (.attach 1 0), .plain (.send 0 [1] (.mac (Demo.mac 2)) 0x0800),
   .plain (.send 0 [2] (.mac (Demo.mac 2)) 0x0800),
   .run (.cons .dequeue (.mk 0 [3] (.mac (Demo.mac 2)) 0x0800 .nil) .nil)]

/-- The hypotheses of `C70_next_frame_send_is_fatal` are met, and the assertion that fails is "Must be READY to
transmit". -/
example : Demo.checkR Demo.env Demo.sys (dequeueOps.take 4) (fun s =>
      decide (s.pending.head?.map Pending.act = some (.txComplete 0 (.mac (Demo.mac 2)))) &&
      (s.dev 0).linkUp && decide ((s.dev 0).queue ≠ [])) = true ∧
    Demo.faultR Demo.env Demo.sys dequeueOps = some .txNotReady := by
  decide +kernel

/-- A sink of the Sniffer trace that calls `Send` on the same device. -/
def snifferOps : List ROp :=
  [.plain (.attach 0 0), .plain (.attach 1 0),
   .call (.mk 0 [1] (.mac (Demo.mac 2)) 0x0800
     (.cons .sniffer (.mk 0 [2] (.mac (Demo.mac 2)) 0x0800 .nil) .nil))]

/-- A sink of the PhyTxEnd trace that calls `Send` on the same device: each call returns, the next
completion fails. -/
def phyTxEndOps : List ROp :=
  [.plain (.attach 0 0), .plain (.attach 1 0), .call (.mk 0 [1] (.mac (Demo.mac 2)) 0x0800 .nil),
   .run (.cons .phyTxEnd (.mk 0 [2] (.mac (Demo.mac 2)) 0x0800 .nil) .nil), .run .nil, .run .nil]

/-- **C70.** Both assertions can fail: "Must be READY to transmit" and "m_currentPkt zero". -/
theorem C70_assertions_fail :
    execR Demo.env Demo.sys snifferOps = .fail .txNotReady ∧
      execR Demo.env Demo.sys phyTxEndOps = .fail .noCurrentPacket :=
  ⟨Demo.execR_of_faultR (by decide +kernel), Demo.execR_of_faultR (by decide +kernel)⟩

/-- The hypotheses of `C70_sniffer_send_is_fatal` and of `C70_phyTxEnd_send_is_fatal` are met: the state
before the last call of `snifferOps`, and a state reached by `phyTxEndOps`. -/
example : Demo.checkR Demo.env Demo.sys (snifferOps.take 2) (fun s =>
      (s.dev 0).linkUp && !(s.dev 0).busy && decide (0 < (s.dev 0).cap)) = true ∧
    Demo.checkR Demo.env Demo.sys (phyTxEndOps.take 3) (fun s =>
      decide (s.pending.head?.map Pending.act = some (.txComplete 0 (.mac (Demo.mac 2)))) &&
      (s.dev 0).linkUp && decide ((s.dev 0).queue.length < (s.dev 0).cap)) = true ∧
    Demo.checkR Demo.env Demo.sys (phyTxEndOps.take 4) (fun s => (s.dev 0).busy && (s.dev 0).cur.isNone) = true := by
  decide +kernel

/-- A forwarding program: device 1 answers from its receive callback. -/
example : (∀ op ∈ nestedOps.drop 4, forwardOp op = true) ∧ (nestedOps.drop 4).length = 12 := by decide

end Verif
