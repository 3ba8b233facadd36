import Verif.Lemmas.Reconfigure
import Verif.Props.Reentrant
/-!
# Reconfiguration from trace sinks and callbacks (C96)

Histories are those of C70.  Connected code may call setters, `Attach` and `Detach` on any device wherever a
trace source or a callback fires, also on the device whose call it interrupts, and from the link change
callbacks of the devices it attaches and detaches.
-/

namespace Verif
open Spec

/-- **C96.** Connected code that reconfigures, attaches and detaches devices, but does not send, cannot make an
assertion of the transmit path fail or make a device lose its channel, wherever it does so. -/
theorem C96_no_assertion {E : Env} {s0 : Sys} {ops : List ROp} {e : Fault} (h0 : Initial s0)
    (hq : ∀ op ∈ ops, quietOp op = true) (h : execR E s0 ops = .fail e) :
    e ≠ .txNotReady ∧ e ≠ .txNotBusy ∧ e ≠ .noCurrentPacket ∧ e ≠ .nullChannel :=
  C70_nested_calls_no_assertion_partial h0 (quiet_histOk hq) h

/-- **C96.** It cannot lose, duplicate or reorder frames either: what was accepted has been put on the air or
waits, exactly once; transmissions begin and end alternately; an idle device has nothing waiting; what has
been put on the air followed by what waits only ever grows at its end. -/
theorem C96_exactly_once {E : Env} {s0 s s' : Sys} {ops1 ops2 : List ROp} (h0 : Initial s0)
    (hq1 : ∀ op ∈ ops1, quietOp op = true) (h1 : execR E s0 ops1 = .ok s)
    (hq2 : ∀ op ∈ ops2, quietOp op = true) (h2 : execR E s ops2 = .ok s') (d : DevId) :
    (accepted d s.log).Perm (begun d s.log ++ (s.dev d).queue) ∧ Alternating (phases d s.log) ∧
      ((s.dev d).busy = false → (s.dev d).queue = []) ∧
      begun d s.log ++ (s.dev d).queue <+: begun d s'.log ++ (s'.dev d).queue := by
  obtain ⟨a, b, c⟩ := C70_nested_calls_exactly_once_partial h0 (quiet_histOk hq1) h1 d
  exact ⟨a, b, c, C70_nested_calls_fifo_partial h0 (quiet_histOk hq1) h1 (quiet_histOk hq2) h2 d⟩

/-- **C96.** The link is examined once, when `Send` is called, and the source address is read then: if the link
is up and the device idle, the frame is put on the air whatever connected code reconfigures, attaches or
detaches meanwhile; if the link is down the packet is refused, even if connected code brings the link up. -/
theorem C96_link_checked_once {E : Env} {s0 s s' : Sys} {ops : List ROp} (h0 : Initial s0)
    (hok : HistOk E s0 ops) (h : execR E s0 ops = .ok s) {d : DevId} {p : Bytes} {m : Mac48} {proto : UInt16}
    {sc : Script} (hq : quietScript sc = true) (hs : sendR E (.mk d p (.mac m) proto sc) s = .ok s') :
    ((s.dev d).linkUp = true → (s.dev d).busy = false → 0 < (s.dev d).cap →
      begun d s'.log = begun d s.log ++ [addHeader E.fcs p (s.dev d).addr m proto] ∧
        accepted d s'.log = accepted d s.log ++ [addHeader E.fcs p (s.dev d).addr m proto]) ∧
    ((s.dev d).linkUp = false → begun d s'.log = begun d s.log ∧ accepted d s'.log = accepted d s.log ∧
      s'.log.getLast? = some (s'.now, .sendRet d p (.mac m) proto false p)) := by
  rw [sendR_mk] at hs
  constructor
  · intro hl hb hcap
    have hqe := (C70_nested_calls_exactly_once_partial h0 hok h d).2.2 hb
    obtain ⟨a, b, _⟩ := send_still (quiet_still sc hq) hl hb hqe hcap hs
    exact ⟨a, b⟩
  · intro hl
    obtain ⟨a, b, _, c⟩ := send_down (quiet_still sc hq) hl hs
    exact ⟨a, b, c⟩

/-- **C96.** Attributes set by code connected to MacTx, to the Enqueue or Dequeue trace of the queue, to a
sniffer or to PhyTxBegin apply to the very frame an idle device sends, as if they had been set before the call:
its duration, its power and its receivers.  Only the address of the device itself does not (it has been
written into the frame). -/
theorem C96_settings_apply_to_frame_sent {E : Env} {s : Sys} {d : DevId} {p : Bytes} {m : Mac48} {proto : UInt16}
    {ops : List Op} (hops : ∀ op ∈ ops, Op.setter op = true ∧ Op.readdress d op = false)
    (hl : (s.dev d).linkUp = true) (hb : (s.dev d).busy = false) (hq : (s.dev d).queue.length < (s.dev d).cap)
    {h : Hook}
    (hh : h = .macTx ∨ h = .enqueue ∨ h = .dequeue ∨ h = .promiscSniffer ∨ h = .sniffer ∨ h = .phyTxBegin) :
    sendR E (.mk d p (.mac m) proto (atHook h ops)) s = exec E s (ops ++ [.send d p (.mac m) proto]) := by
  obtain ⟨T, hT, hA⟩ := setters_tune (E := E) (fun op ho => (hops op ho).1)
  have hn : (∀ i, h ≠ .txrx i) ∧ ∀ c a i, h ≠ .txrxAt c a i := by
    rcases hh with rfl | rfl | rfl | rfl | rfl | rfl <;> simp
  rw [sendR_mk, sinks_atHook h hn.1 hn.2, exec_append, hT]
  simp only [hT, Outcome.ok_bind, exec, step]
  rw [show (fun k t => if h = k then Outcome.ok (T.app t) else Outcome.ok t) = tuneAt T h from rfl,
    send_tune hh hl hb hq (hA d (fun op ho => (hops op ho).2) _)]
  cases send E (T.app s) d p (.mac m) proto <;> rfl

/-- **C96.** The same holds when a completion starts the next frame, and for attributes set by code connected to
PhyTxEnd whether or not a frame is waiting. -/
theorem C96_settings_apply_to_next_frame {E : Env} {s : Sys} {t : Time} {d : DevId} {dest : Addr} {ps : List Pending}
    {ops : List Op} (hops : ∀ op ∈ ops, Op.setter op = true) (hp : s.pending = ⟨t, .txComplete d dest⟩ :: ps)
    {h : Hook} (hh : h = .phyTxEnd ∨ h = .dequeue ∨ h = .promiscSniffer ∨ h = .sniffer ∨ h = .phyTxBegin)
    (hq : h = .phyTxEnd ∨ (s.dev d).queue ≠ []) :
    runR E (atHook h ops) s = exec E s (ops ++ [.run]) := by
  obtain ⟨T, hT, -⟩ := setters_tune (E := E) hops
  rw [exec_append, hT]
  have hn : (∀ i, h ≠ .txrx i) ∧ ∀ c a i, h ≠ .txrxAt c a i := by
    rcases hh with rfl | rfl | rfl | rfl | rfl <;> simp
  unfold runR
  simp only [hp, sinks_atHook h hn.1 hn.2, hT, Outcome.ok_bind, exec, step]
  rw [show (fun k t => if h = k then Outcome.ok (T.app t) else Outcome.ok t) = tuneAt T h from rfl,
    complete_tune (s := { s with now := t, pending := ps }) hh hq]
  have : run E (T.app s) = transmitComplete E (T.app { s with now := t, pending := ps }) d dest := by
    unfold run
    rw [show (T.app s).pending = ⟨t, .txComplete d dest⟩ :: ps from hp]
    rfl
  rw [this]
  cases transmitComplete E (T.app { s with now := t, pending := ps }) d dest <;> rfl

/-- **C96.** Attributes set by code connected to PhyRxEnd decide about the very frame that has arrived, as if
they had been set before it arrived: the threshold, gain and loss, the address it is compared with and the
promiscuous mode. -/
theorem C96_settings_apply_to_frame_received {E : Env} {s : Sys} {t : Time} {d : DevId} {f : Bytes} {src : DevId}
    {rx : Power} {ps : List Pending} {ops : List Op} (hops : ∀ op ∈ ops, Op.setter op = true)
    (hp : s.pending = ⟨t, .receive d f src rx⟩ :: ps) (hne : src ≠ d) :
    runR E (atHook .phyRxEnd ops) s = exec E s (ops ++ [.run]) := by
  obtain ⟨T, hT, -⟩ := setters_tune (E := E) hops
  rw [exec_append, hT]
  unfold runR
  simp only [hp, sinks_atHook .phyRxEnd (by simp) (by simp), hT, Outcome.ok_bind, exec, step]
  rw [show (fun k t => if Hook.phyRxEnd = k then Outcome.ok (T.app t) else Outcome.ok t) = tuneAt T .phyRxEnd from rfl,
    receive_tune hne]
  have : run E (T.app s) = receive E (T.app { s with now := t, pending := ps }) d f src rx := by
    unfold run
    rw [show (T.app s).pending = ⟨t, .receive d f src rx⟩ :: ps from hp]
    rfl
  rw [this]
  cases receive E (T.app { s with now := t, pending := ps }) d f src rx <;> rfl

/-! ## Examples -/

/-- Connected code detaches the sender while it sends, changes the rate when the frame begins, re-attaches it
from the link change callback of the receiver and reconfigures the receiver when the frame arrives. -/
def reconfigureOps : List ROp :=
  let to1 := Addr.mac (Demo.mac 2)
  [.plain (.attach 0 1), .call (.conf (.attach 1 1) (.cons .linkChange (.conf (.setGap 1 5) .nil) .nil)),
   .call (.mk 0 [1] to1 0x0800
     (.cons .macTx (.conf (.detach 1 0) (.cons .linkChange (.conf (.setMtu 0 100) .nil) .nil))
     (.cons .phyTxBegin (.conf (.setRate 0 1000) .nil) .nil))),
   .call (.mk 0 [2] to1 0x0800 (.cons .macTxDrop (.conf (.attach 0 1) .nil) .nil)),
   .run (.cons .phyTxEnd (.conf (.setRate 0 2000) .nil) .nil),
   .run (.cons .phyRxEnd (.conf (.setPromisc 1 true) .nil) .nil), .run .nil]

/-- The hypotheses are met: the frame is transmitted and received although its sender was detached during the
call, the packet offered while the link was down is refused although the link came up meanwhile, and the
promiscuous mode set when the frame arrived applies to it. -/
example : (∀ op ∈ reconfigureOps, quietOp op = true) ∧
    Demo.checkR Demo.env Demo.sys reconfigureOps (fun s =>
      s.pending.isEmpty && (begun 0 s.log).length == 1 && (accepted 0 s.log).length == 1 && (s.dev 0).linkUp &&
      s.log.any (fun e => match e.2 with | .promiscCallback .. => true | _ => false)) = true ∧
    Demo.checkR Demo.env Demo.sys (reconfigureOps.take 2) (fun s =>
      (s.dev 0).linkUp && !(s.dev 0).busy && decide (0 < (s.dev 0).cap)) = true ∧
    Demo.checkR Demo.env Demo.sys (reconfigureOps.take 3) (fun s => !(s.dev 0).linkUp && (s.dev 0).busy) = true ∧
    Demo.checkR Demo.env Demo.sys (reconfigureOps.take 5) (fun s =>
      match s.pending with
      | ⟨_, .receive d _ src _⟩ :: _ => decide (d = 1 ∧ src = 0)
      | _ => false) = true := by
  decide +kernel

/-- Settings met by the hypotheses of the laws above, and their effect: the completion is later. -/
example :
    let ops : List Op := [.setGap 0 1000, .setTxPower 0 3, .setAddress 1 (.mac (Demo.mac 7))]
    (∀ op ∈ ops, Op.setter op = true ∧ Op.readdress 0 op = false) ∧
    Demo.checkR Demo.env Demo.sys [.plain (.attach 0 1), .plain (.attach 1 1),
        .call (.mk 0 [1] (.mac (Demo.mac 2)) 0x0800 (atHook .phyTxBegin ops))] (fun s =>
      Demo.checkR Demo.env Demo.sys [.plain (.attach 0 1), .plain (.attach 1 1),
        .call (.mk 0 [1] (.mac (Demo.mac 2)) 0x0800 .nil)] (fun s' =>
        decide (s.pending.map Pending.time ≠ s'.pending.map Pending.time))) = true := by
  decide +kernel

end Verif
