import Verif.Lemmas.ChannelTrace6
import Verif.Props.Reentrant
/-!
# Code connected to the trace source of a channel (C97)

The channel fires its trace source in the middle of the loops that deliver a frame
(model/mock-channel.cc:206).  Which calls made from there are harmless, what the others do.
-/

namespace Verif
open Spec

/-! ## Concrete cases -/

/-- The demonstration network with ground device 0 and satellites 1 and 3 attached to the LEO channel. -/
def traceNet : Sys :=
  { Demo.sys with
    dev := fun d => if d = 0 ∨ d = 1 ∨ d = 3 then
      { Demo.sys.dev d with chan := some 0, chanSlot := (d + 1) / 2, linkUp := true } else Demo.sys.dev d
    chan := fun c => if c = 0 then { Demo.sys.chan c with link := [0, 1, 3], gnd := [(Demo.mac 1, 0)],
                                                          sat := [(Demo.mac 2, 1), (Demo.mac 4, 3)] } else Demo.sys.chan c }

/-- The demonstration network with satellites 1, 3 and 5 attached to an ISL channel. -/
def traceIsl : Sys :=
  { Demo.sys with
    dev := fun d => if d = 1 ∨ d = 3 ∨ d = 5 then
      { Demo.sys.dev d with chan := some 1, chanSlot := d / 2, linkUp := true } else Demo.sys.dev d
    chan := fun c => if c = 1 then { Demo.sys.chan c with link := [1, 3, 5] } else Demo.sys.chan c }

theorem traceNet_keyed : Keyed [0, 1, 3, 5, 7] traceNet := by
  have hc : ∀ c, c ≠ 0 → traceNet.chan c = Demo.sys.chan c := fun c h => by simp [traceNet, h]
  refine ⟨fun c => ?_, fun c => ?_, fun c => ?_, fun c => ?_, by decide +kernel⟩ <;>
    (by_cases h : c = 0
     · subst h; decide +kernel
     · rw [hc c h]; simp [Demo.sys])

theorem traceNet_ordered : Ordered traceNet := fun c => ⟨traceNet_keyed.gnd c, traceNet_keyed.sat c⟩

theorem traceIsl_ordered : Ordered traceIsl := by
  intro c
  have : (traceIsl.chan c).gnd = [] ∧ (traceIsl.chan c).sat = [] := by
    unfold traceIsl
    by_cases h : c = 1 <;> simp [h, Demo.sys]
  rw [this.1, this.2]
  simp

/-- Result of a call with connected code, tested. -/
def sendOk (s : Sys) (c : Call) (test : Sys → Bool) : Bool :=
  match sendR Demo.env c s with
  | .ok s' => test s'
  | .fail _ => false

/-- Fault of a call with connected code. -/
def sendFault (s : Sys) (c : Call) : Option Fault :=
  match sendR Demo.env c s with
  | .ok _ => none
  | .fail e => some e

/-- **C97.** Whatever connected code does, and wherever it does it, the address indexes of the channels stay in order:
in particular no address is listed twice. -/
theorem C97_indices_ordered {E : Env} {s s' : Sys} {ops : List ROp} (hs : Ordered s) (h : execR E s ops = .ok s') :
    Ordered s' := by
  let X : TCtx := {
    K := fun c => (s.chan c).kind
    P := fun _ => True
    bad := fun _ => false
    Ri := fun _ _ => True
    refl := fun _ => trivial
    trans := fun _ _ _ _ _ => trivial
    other := fun _ _ _ => trivial
    iter := Or.inl trivial
    endless := Or.inl trivial
    attach := fun _ _ _ _ _ _ _ _ _ => trivial
    detach := fun _ _ _ _ => trivial }
  have av : (∀ c : Call, avoids (fun _ => false) c = true) ∧ ∀ sc : Script, avoidsS (fun _ => false) sc = true :=
    ⟨avoids_none, avoidsS_none⟩
  have dv : (∀ c : Call, deliverAvoids (fun _ => false) c = true) ∧ ∀ sc : Script, deliverAvoidsS (fun _ => false) sc = true := by
    refine ⟨fun c => ?_, fun sc => ?_⟩
    · exact Call.rec (motive_1 := fun c => deliverAvoids (fun _ => false) c = true)
        (motive_2 := fun sc => deliverAvoidsS (fun _ => false) sc = true)
        (fun _ _ _ _ _ ih => by simpa [deliverAvoids] using ih) (fun _ _ ih => by simpa [deliverAvoids] using ih) rfl
        (fun _ _ _ i1 i2 => by simp [deliverAvoidsS, i1, i2, av.1]) c
    · exact Script.rec (motive_1 := fun c => deliverAvoids (fun _ => false) c = true)
        (motive_2 := fun sc => deliverAvoidsS (fun _ => false) sc = true)
        (fun _ _ _ _ _ ih => by simpa [deliverAvoids] using ih) (fun _ _ ih => by simpa [deliverAvoids] using ih) rfl
        (fun _ _ _ i1 i2 => by simp [deliverAvoidsS, i1, i2, av.1]) sc
  have hops : ∀ op ∈ ops, deliverAvoidsOp X.bad op = true := by
    intro op _
    cases op with
    | call c => exact dv.1 c
    | run sc => exact dv.2 sc
    | plain _ => rfl
  have := X.execR_holds (E := E) rfl ops hops s (fun c => ⟨(hs c).1, (hs c).2, rfl⟩)
  rw [h] at this
  exact fun c => ⟨(this c).1, (this c).2.1⟩

/-- Connected code attaches satellite 5 and takes satellite 1 off the channel while frames are delivered; the index that
results has three addresses less one, in order. -/
example : Demo.checkR Demo.env traceNet
    [.call (.mk 0 [1] (.mac (Demo.mac 2)) 0x0800
      (.cons (.txrx 1) (.conf (.attach 5 0) (.cons .linkChange (.conf (.detach 0 1) .nil) .nil)) .nil)), .run .nil]
    (fun s => decide ((s.chan 0).sat = [(Demo.mac 4, 3), (Demo.mac 6, 5)])) = true := by decide +kernel

/-- **C97 (partial).** If code connected to the trace source of a channel detaches no device from a channel between
ground and satellites, no loop of such a channel goes on with an iterator to an erased element.  Code connected
elsewhere may detach devices, and code connected to the trace source may do everything else.  The restriction is
needed: `C97_detach_receiver_fatal`. -/
theorem C97_no_invalid_iterator_partial {E : Env} {s : Sys} {ops : List ROp} (hs : Ordered s)
    (hops : ∀ op ∈ ops, deliverAvoidsOp (detachLeo s) op = true) : execR E s ops ≠ .fail .iteratorInvalid := by
  let X : TCtx := {
    K := fun c => (s.chan c).kind
    P := fun e => e ≠ .iteratorInvalid
    bad := detachLeo s
    Ri := fun _ _ => True
    refl := fun _ => trivial
    trans := fun _ _ _ _ _ => trivial
    other := fun _ h _ => h
    iter := Or.inr (fun c _ h => by simp [detachLeo, h])
    endless := Or.inl (by decide)
    attach := fun _ _ _ _ _ _ _ _ _ => trivial
    detach := fun _ _ _ _ => trivial }
  have := X.execR_holds (E := E) rfl ops hops s (fun c => ⟨(hs c).1, (hs c).2, rfl⟩)
  intro h
  rw [h] at this
  exact this rfl

/-- A history of this kind: satellites are attached while a frame is delivered and detached by a receive callback. -/
example : let ops : List ROp :=
      [.call (.mk 0 [1] (.mac (Demo.mac 2)) 0x0800 (.cons (.txrx 0) (.conf (.attach 5 0) .nil) .nil)),
       .run .nil, .run (.cons .phyRxEnd (.conf (.detach 0 1) .nil) .nil), .run .nil, .run .nil, .run .nil]
    Ordered traceNet ∧ (∀ op ∈ ops, deliverAvoidsOp (detachLeo traceNet) op = true) ∧
      Demo.checkR Demo.env traceNet ops (fun s => decide ((s.chan 0).sat = [(Demo.mac 4, 3), (Demo.mac 6, 5)])) = true :=
  ⟨traceNet_ordered, by decide +kernel, by decide +kernel⟩

/-- **C97 (partial).** If code connected to the trace source of a channel attaches no device to a channel between
satellites, every broadcast over such a channel ends; and the loop over a channel between ground and satellites ends in
any case.  The restriction is needed: `C97_broadcast_never_ends`. -/
theorem C97_no_endless_loop_partial {E : Env} {s : Sys} {ops : List ROp} (hs : Ordered s)
    (hops : ∀ op ∈ ops, deliverAvoidsOp (attachIsl s) op = true) : execR E s ops ≠ .fail .endlessLoop := by
  let X : TCtx := {
    K := fun c => (s.chan c).kind
    P := fun e => e ≠ .endlessLoop
    bad := attachIsl s
    Ri := fun a b => ∀ c, (s.chan c).kind = .isl → (b c).link.length = (a c).link.length
    refl := fun _ _ _ => rfl
    trans := fun _ _ _ h1 h2 c hc => (h2 c hc).trans (h1 c hc)
    other := fun _ _ h => h
    iter := Or.inl (by decide)
    endless := Or.inr (fun _ _ h => h)
    attach := by
      intro d c hb a ch' _ _ _ _ x hx
      by_cases hxc : x = c
      · subst hxc; simp [attachIsl, hx] at hb
      · simp [hxc]
    detach := by
      intro c a m _ x _
      by_cases hxc : x = c
      · subst hxc; simp
      · simp [hxc] }
  have := X.execR_holds (E := E) rfl ops hops s (fun c => ⟨(hs c).1, (hs c).2, rfl⟩)
  intro h
  rw [h] at this
  exact this rfl

/-- A history of this kind: a satellite is detached and another one sends while a broadcast is delivered; a receive
callback attaches one more. -/
example : let ops : List ROp :=
      [.call (.mk 1 [1] (.mac Mac48.broadcast) 0x0800 (.cons (.txrx 1) (.conf (.detach 1 1) .nil)
        (.cons (.txrx 2) (.mk 5 [2] (.mac Mac48.broadcast) 0x0800 .nil) .nil))),
       .run (.cons .rxCallback (.conf (.attach 7 1) .nil) .nil), .run .nil, .run .nil]
    Ordered traceIsl ∧ (∀ op ∈ ops, deliverAvoidsOp (attachIsl traceIsl) op = true) ∧
      Demo.checkR Demo.env traceIsl ops (fun s => decide ((receivers s.log).length = 4)) = true :=
  ⟨traceIsl_ordered, by decide +kernel, by decide +kernel⟩

/-- **C97 (the claim without restriction is false).** Whenever a channel between ground and satellites hands a frame
to a device, code connected to its trace source that detaches this very device at that moment leaves the loop with an
iterator to an erased element. -/
theorem C97_detach_receiver_fatal {E : Env} {s s1 : Sys} {d y : DevId} {p : Bytes} {dest : Addr} {proto : UInt16} {c : ChanId}
    {slot : Nat} (h : send E s d p dest proto = .ok s1) (hy : y ∈ receivers (newLog s s1))
    (hc : (s.dev d).chan = some c) (hkind : (s.chan c).kind = .leo) (hsl : (s.chan c).link[(s.dev d).chanSlot]? = some d)
    (hslot : (s.chan c).link[slot]? = some y)
    (hkey : ∀ x ∈ (s.chan c).gnd ++ (s.chan c).sat, x.2 = y → x.1 = (s.dev y).addr) :
    ∃ i, sendR E (.mk d p dest proto (atRound i (.detach c slot))) s = .fail .iteratorInvalid := by
  rcases send_via_chan h with ⟨h0, _⟩ | ⟨t, c', f, g, tx, l, r, hn, hc', hl, hl0, htr, rfl, hK⟩
  · rw [h0] at hy; cases hy
  · rw [hc] at hc'
    injection hc' with hc'; subst hc'
    obtain ⟨l', hl', hrec⟩ := receivers_chan hn hsl htr
    rw [receivers_landed (s3 := r.1) (b := r.2) hl hl0 hl', hrec, List.mem_filter] at hy
    obtain ⟨hya, hyr⟩ := hy
    have hne : audience t c (s.dev d).chanSlot dest ≠ [] := by
      rw [hn.audience]; exact List.ne_nil_of_mem hya
    obtain ⟨gg, m, hm, ha, -, hdel, hloop⟩ := leo_loop (by rw [hn.chan]; exact hkind) (by rw [hn.chan]; exact hsl) htr hne
    rw [← hn.audience, ha, List.mem_map] at hya
    obtain ⟨⟨a, y'⟩, hmem, hy'⟩ := hya
    simp only at hy'; subst hy'
    obtain ⟨pre, post, hsplit⟩ := List.append_of_mem hmem
    have haddr : a = (s.dev y').addr := by
      refine hkey (a, y') ?_ rfl
      rw [hn.chan] at hmem
      rw [List.mem_append]
      cases gg
      · exact Or.inl hmem
      · exact Or.inr hmem
    refine ⟨pre.length, ?_⟩
    rw [sendR_mk, hK _ atRound_only, hloop, hsplit]
    obtain ⟨q, rfl⟩ : ∃ q, m = q + 1 := ⟨m - 1, by omega⟩
    have hlen : (pre ++ (a, y') :: post).length + (q + 1) = (post.length + (q + 1)) + 1 + pre.length := by
      simp only [List.length_append, List.length_cons]; omega
    rw [hlen, leoLoopK_erase (e := .iteratorInvalid)]
    · rfl
    · intro j hj a u
      exact sinks_atRound_ne hj rfl
    · intro u hud huc
      show sinksR E (.txrxAt c a pre.length) _ u = _
      rw [sinks_atRound, confK, detachK, huc, hn.chan, hkind]
      simp only [hslot, hud, hn.addr, ← haddr]
      simp
    · rw [← hsplit]; exact hdel
    · rw [hn.recv]; exact hyr

/-- Satellite 3 is the second to be served; detaching it then is fatal, detaching satellite 1 then is not. -/
example : sendFault traceNet (.mk 0 [1] (.mac (Demo.mac 2)) 0x0800 (atRound 1 (.detach 0 2))) = some .iteratorInvalid ∧
    sendFault traceNet (.mk 0 [1] (.mac (Demo.mac 2)) 0x0800 (atRound 1 (.detach 0 1))) = none ∧
    sendOk traceNet (.mk 0 [1] (.mac (Demo.mac 2)) 0x0800 .nil) (fun s1 =>
      decide (3 ∈ receivers (newLog traceNet s1))) = true ∧
    (traceNet.chan 0).link[2]? = some 3 ∧
    (∀ x ∈ (traceNet.chan 0).gnd ++ (traceNet.chan 0).sat, x.2 = 3 → x.1 = (traceNet.dev 3).addr) := by decide +kernel

/-- **C97.** Whatever code connected to the trace source of a channel between ground and satellites calls while a
device is served, however deeply nested and also from loops of other deliveries started meanwhile: if the program goes
on, this device is still in the index of the channel afterwards. -/
theorem C97_served_device_stays {E : Env} {s s1 s2 : Sys} {d y : DevId} {p : Bytes} {dest : Addr} {proto : UInt16} {c : ChanId}
    {i : Nat} {call : Call} (hs : Ordered s) (hc : (s.dev d).chan = some c) (hkind : (s.chan c).kind = .leo)
    (hsl : (s.chan c).link[(s.dev d).chanSlot]? = some d)
    (hkey : ∀ x ∈ (s.chan c).gnd ++ (s.chan c).sat, x.2 = y → x.1 = (s.dev y).addr)
    (hi : (audience s c (s.dev d).chanSlot dest)[i]? = some y) (h1 : send E s d p dest proto = .ok s1)
    (hy : y ∈ receivers (newLog s s1)) (h2 : sendR E (.mk d p dest proto (.cons (.txrx i) call .nil)) s = .ok s2) :
    (s.dev y).addr ∈ ((s2.chan c).gnd ++ (s2.chan c).sat).map Prod.fst := by
  rcases send_via_chan h1 with ⟨h0, _⟩ | ⟨t, c', f, g, tx, l, r, hn, hc', hl, hl0, htr, rfl, hK⟩
  · rw [h0] at hy; cases hy
  · rw [hc] at hc'
    injection hc' with hc'; subst hc'
    obtain ⟨l', hl', hrec⟩ := receivers_chan hn hsl htr
    rw [receivers_landed (s3 := r.1) (b := r.2) hl hl0 hl', hrec, List.mem_filter] at hy
    have hne : audience t c (s.dev d).chanSlot dest ≠ [] := by
      rw [hn.audience]; exact List.ne_nil_of_mem hy.1
    obtain ⟨gg, m, hm, ha, -, hdel, hloop⟩ := leo_loop (by rw [hn.chan]; exact hkind) (by rw [hn.chan]; exact hsl) htr hne
    rw [← hn.audience, ha, List.getElem?_map] at hi
    obtain ⟨⟨a, y'⟩, hget, hy'⟩ := Option.map_eq_some_iff.mp hi
    simp only at hy'; subst hy'
    have haddr : a = (s.dev y').addr := by
      refine hkey (a, y') ?_ rfl
      have := List.mem_of_getElem? hget
      rw [hn.chan] at this
      rw [List.mem_append]
      cases gg
      · exact Or.inl this
      · exact Or.inr this
    have hilt : i < ((t.chan c).dests gg).length := (List.getElem?_eq_some_iff.mp hget).1
    have hsplit : (t.chan c).dests gg = ((t.chan c).dests gg).take i ++ (a, y') :: ((t.chan c).dests gg).drop (i + 1) := by
      rw [← (List.getElem?_eq_some_iff.mp hget).2, List.getElem_cons_drop, List.take_append_drop]
    have hpl : (((t.chan c).dests gg).take i).length = i := by rw [List.length_take]; omega
    have hmem : a ∈ ((t.chan c).gnd ++ (t.chan c).sat).map Prod.fst := by
      have := List.mem_map_of_mem (f := Prod.fst) (List.mem_of_getElem? hget)
      rw [List.map_append, List.mem_append]
      cases gg
      · exact Or.inl this
      · exact Or.inr this
    generalize ((t.chan c).dests gg).take i = pre at hsplit hpl
    generalize ((t.chan c).dests gg).drop (i + 1) = post at hsplit
    subst hpl
    have hother : ∀ h : Hook, h.point ≠ .txrx pre.length → ∀ u, sinksR E h (.cons (.txrx pre.length) call .nil) u = .ok u := by
      intro h hh u
      rw [sinksR, sinksI, if_neg (Ne.symm hh), sinksI]
    have hhere : ∀ u, sinksR E (.txrxAt c a pre.length) (.cons (.txrx pre.length) call .nil) u = sendI E call [(c, a)] u := by
      intro u
      rw [sinksR, sinksI, if_pos (show Hook.txrx pre.length = (Hook.txrxAt c a pre.length).point from rfl)]
      show (sendI E call [(c, a)] u >>= _) = _
      cases hr : sendI E call [(c, a)] u with
      | fail e => rfl
      | ok v => rw [Outcome.ok_bind, sinksI]
    rw [sendR_mk, hK _ (fun h hh u => hother h (by cases h <;> simp_all [Hook.point, Hook.inDelivery]) u), hloop, Outcome.bind_eq_ok] at h2
    obtain ⟨⟨s3, b3⟩, hr2, h2⟩ := h2
    injection h2 with h2
    have hlen : ((t.chan c).dests gg).length + m = (post.length + m) + 1 + pre.length := by
      rw [hsplit]; simp only [List.length_append, List.length_cons]; omega
    have hch : s2.chan = s3.chan := by rw [← h2]; unfold landed; split <;> rfl
    rw [hch, ← haddr]
    rw [hlen, hsplit, leoLoopK_before (fun j hj a u => hother _ (by simpa [Hook.point] using hj) u) pre _ _ _ _ _ (by omega),
      Outcome.bind_eq_ok] at hr2
    obtain ⟨⟨u1, b1⟩, hu1, hr2⟩ := hr2
    rw [leoLoopK, Outcome.bind_eq_ok] at hr2
    obtain ⟨⟨u2, b2⟩, hu2, hr2⟩ := hr2
    have e1 : u1.chan = t.chan := by obtain ⟨e, _⟩ := deliverAll_ok hu1; rw [e]; rfl
    have e3 : s3.chan = u2.chan := leoLoopK_chan (fun j hj a u => hother _ (by simp [Hook.point]; omega) u) _ _ _ _ hr2
    rw [e3]
    let X : TCtx := {
      K := fun c => (t.chan c).kind
      P := fun _ => True
      bad := fun _ => false
      hold := [(c, a)]
      Ri := fun x y => (a ∈ (x c).gnd.map Prod.fst → a ∈ (y c).gnd.map Prod.fst) ∧
        (a ∈ (x c).sat.map Prod.fst → a ∈ (y c).sat.map Prod.fst)
      refl := fun _ => ⟨id, id⟩
      trans := fun _ _ _ h1 h2 => ⟨h2.1 ∘ h1.1, h2.2 ∘ h1.2⟩
      other := fun _ _ _ => trivial
      iter := Or.inl trivial
      endless := Or.inl trivial
      attach := by
        intro z c' _ x ch' _ _ h1 h2
        by_cases hx : c = c'
        · subst hx; simp only [if_true]; exact ⟨h1 a, h2 a⟩
        · simp only [hx, if_false]; exact ⟨id, id⟩
      detach := by
        intro c' x a' hne
        by_cases hx : c = c'
        · subst hx
          have ha' : a ≠ a' := fun he => hne (by simp [he])
          simp only [if_true, mapErase, List.mem_map, List.mem_filter]
          constructor <;> rintro ⟨z, hz, he⟩ <;> exact ⟨z, ⟨hz, by simpa [he] using ha'⟩, he⟩
        · simp only [hx, if_false]; exact ⟨id, id⟩ }
    have hord : CInv X.K u1.chan := by
      rw [e1]
      exact fun c => ⟨by rw [hn.chan]; exact (hs c).1, by rw [hn.chan]; exact (hs c).2, rfl⟩
    have hsink : X.SinkH true (fun u => sinksR E (.txrxAt c a pre.length) (.cons (.txrx pre.length) call .nil) u) := by
      intro u hu
      simp only [hhere]
      exact X.sendI_holds call true [(c, a)] (Or.inl ⟨rfl, fun _ h => h⟩) (avoids_none call) u hu
    have hpost := X.deliverK_holds (E := E) hsink (c := c) (f := g) (src := d) (dst := y') (t := tx) hord
    rw [show deliverK E _ u1 c g d y' tx = _ from hu2] at hpost
    have hri := hpost.2 rfl
    rw [e1] at hri
    rw [List.map_append, List.mem_append] at hmem ⊢
    exact hmem.imp hri.1 hri.2

/-- While satellite 3 is served, satellite 1 answers; code connected to that delivery, two levels down, detaches
satellite 3: fatal. If it detaches satellite 1 instead the program goes on and 3 stays. -/
example : let inner (slot : Nat) : Call := .mk 1 [2] (.mac (Demo.mac 0)) 0x0800 (atRound 0 (.detach 0 slot))
    sendFault traceNet (.mk 0 [1] (.mac (Demo.mac 2)) 0x0800 (.cons (.txrx 1) (inner 2) .nil)) = some .iteratorInvalid ∧
    sendOk traceNet (.mk 0 [1] (.mac (Demo.mac 2)) 0x0800 (.cons (.txrx 1) (inner 1) .nil)) (fun s2 =>
      decide (((s2.chan 0).gnd ++ (s2.chan 0).sat).map Prod.snd = [0, 3])) = true ∧
    (audience traceNet 0 (traceNet.dev 0).chanSlot (.mac (Demo.mac 2)))[1]? = some 3 := by decide +kernel

/-- **C97.** Code connected to the trace source of the channel that only attaches devices (of `D`, no two of which share
an address) and sets anything but addresses and the transmit power of the sender takes no delivery away from a frame:
everything that would have arrived without it arrives, at the same time and with the same power. -/
theorem C97_receivers_kept {E : Env} {D : List DevId} {s s1 s2 : Sys} {d : DevId} {p : Bytes} {dest : Addr} {proto : UInt16}
    {sc : Script} (hs : Keyed D s)
    (hsl : ∀ c, (s.dev d).chan = some c → (s.chan c).link[(s.dev d).chanSlot]? = some d)
    (honly : onlyTrace sc = true) (hq : quietScript sc = true) (hg : avoidsS (fun op => !Op.grows D d op) sc = true)
    (h1 : send E s d p dest proto = .ok s1) (h2 : sendR E (.mk d p dest proto sc) s = .ok s2) :
    ∀ q ∈ s1.pending, q ∈ s2.pending := by
  rcases send_via_chan h1 with ⟨_, hK⟩ | ⟨t, c, f, g, tx, l, r, hn, hc, hl, hl0, htr, rfl, hK⟩
  · rw [sendR_mk, hK _ (sinksR_chanOnly honly)] at h2
    injection h2 with h2
    rw [h2]
    exact fun _ hq => hq
  · rw [sendR_mk, hK _ (sinksR_chanOnly honly), Outcome.bind_eq_ok] at h2
    obtain ⟨r2, hr2, h2⟩ := h2
    injection h2 with h2
    have land : ∀ (r : Sys × Bool), ((landed d g r).emit (.sendRet d p dest proto true f)).pending = r.1.pending := by
      intro r; unfold landed; split <;> rfl
    rw [← h2, land, land]
    refine chanTransmitK_adds (D := D) (k := fun h t => sinksR E h sc t) ?_ (hn.keyed hs) htr hr2
    intro src hsrc hk
    rw [hn.chan, hsl c hc] at hsrc
    injection hsrc with hsrc; subst hsrc
    exact sinksI_adds sc [] hq hg hk

/-- Connected code that attaches two satellites, moves one of them to the ground and changes its power, and deafens
satellite 3. -/
def growingScript : Script :=
  .cons (.txrx 0) (.conf (.attach 5 0) (.cons .linkChange (.conf (.attach 7 0) .nil) .nil))
    (.cons (.txrx 0) (.conf (.setSide 5 .gnd) .nil) (.cons (.txrx 0) (.conf (.setTxPower 5 9) .nil)
    (.cons (.txrx 1) (.conf (.setRxThreshold 3 1000) .nil) .nil)))

/-- The two satellites attached before still get the frame. -/
example : let sc := growingScript
    Keyed [0, 1, 3, 5, 7] traceNet ∧ onlyTrace sc = true ∧ quietScript sc = true ∧
      avoidsS (fun op => !Op.grows [0, 1, 3, 5, 7] 0 op) sc = true ∧
      sendOk traceNet (.mk 0 [1] (.mac (Demo.mac 2)) 0x0800 .nil) (fun s1 =>
        sendOk traceNet (.mk 0 [1] (.mac (Demo.mac 2)) 0x0800 sc) (fun s2 =>
          decide (receivers s1.log = [1, 3] ∧ receivers s2.log = [1, 3, 5, 7]))) = true :=
  ⟨traceNet_keyed, by decide +kernel, by decide +kernel, by decide +kernel, by decide +kernel⟩

/-- **C97.** A device that connected code attaches to a channel between ground and satellites, on the side the frame
goes to, while the frame is being handed to `y` receives this frame exactly if its address is greater than that of `y`. -/
theorem C97_attached_meanwhile_leo {E : Env} {D : List DevId} {s s1 s2 : Sys} {d y z : DevId} {p : Bytes} {dest : Addr}
    {proto : UInt16} {c : ChanId} {i : Nat} (hs : Keyed D s) (hz : z ∈ D)
    (hc : (s.dev d).chan = some c) (hkind : (s.chan c).kind = .leo) (hsl : (s.chan c).link[(s.dev d).chanSlot]? = some d)
    (hi : (audience s c (s.dev d).chanSlot dest)[i]? = some y) (hy : y ∈ receivers (newLog s s1))
    (hza : z ∉ audience s c (s.dev d).chanSlot dest) (hleo : (s.dev z).leo = true)
    (hside : (s.dev z).side = if (s.dev d).addr ∈ (s.chan c).gnd.map Prod.fst then .sat else .gnd)
    (hzr : Reachable E s c d z) (h1 : send E s d p dest proto = .ok s1)
    (h2 : sendR E (.mk d p dest proto (atRound i (.attach z c))) s = .ok s2) :
    if (s.dev y).addr.toNat < (s.dev z).addr.toNat then
      (receivers (newLog s s2)).Perm (z :: receivers (newLog s s1))
    else receivers (newLog s s2) = receivers (newLog s s1) := by
  rcases send_via_chan h1 with ⟨h0, _⟩ | ⟨t, c', f, g, tx, l, r, hn, hc', hl, hl0, htr, rfl, hK⟩
  · rw [h0] at hy; cases hy
  · rw [hc] at hc'
    injection hc' with hc'; subst hc'
    obtain ⟨l', hl', hrec⟩ := receivers_chan hn hsl htr
    rw [receivers_landed (s3 := r.1) (b := r.2) hl hl0 hl', hrec] at hy ⊢
    rw [List.mem_filter] at hy
    obtain ⟨hya, hyr⟩ := hy
    have hne : audience t c (s.dev d).chanSlot dest ≠ [] := by
      rw [hn.audience]; exact List.ne_nil_of_mem hya
    obtain ⟨gg, m, hm, ha, hgg, hdel, hloop⟩ := leo_loop (by rw [hn.chan]; exact hkind) (by rw [hn.chan]; exact hsl) htr hne
    have hkeyT := hn.keyed hs
    have hsorted : SortedKeys ((t.chan c).dests gg) := by
      cases gg
      · exact hkeyT.gnd c
      · exact hkeyT.sat c
    have hkeys : ∀ x ∈ (t.chan c).dests gg, x.2 ∈ D ∧ x.1 = (s.dev x.2).addr := by
      intro x hx
      rw [← hn.addr]
      cases gg
      · exact hkeyT.gndKey c x hx
      · exact hkeyT.satKey c x hx
    rw [← hn.audience, ha] at hi hza ⊢
    rw [List.getElem?_map] at hi
    obtain ⟨⟨a, y'⟩, hget, hy'⟩ := Option.map_eq_some_iff.mp hi
    simp only at hy'; subst hy'
    have hilt : i < ((t.chan c).dests gg).length := (List.getElem?_eq_some_iff.mp hget).1
    have hsplit : (t.chan c).dests gg = ((t.chan c).dests gg).take i ++ (a, y') :: ((t.chan c).dests gg).drop (i + 1) := by
      rw [← (List.getElem?_eq_some_iff.mp hget).2, List.getElem_cons_drop, List.take_append_drop]
    have hpl : (((t.chan c).dests gg).take i).length = i := by rw [List.length_take]; omega
    generalize ((t.chan c).dests gg).take i = pre at hsplit hpl
    generalize ((t.chan c).dests gg).drop (i + 1) = post at hsplit
    subst hpl
    rw [sendR_mk, hK _ atRound_only, hloop, Outcome.bind_eq_ok] at h2
    obtain ⟨r2, hr2, h2⟩ := h2
    injection h2 with h2
    obtain ⟨s3, b3⟩ := r2
    have hlen : ((t.chan c).dests gg).length + m = (post.length + m) + 1 + pre.length := by
      rw [hsplit]; simp only [List.length_append, List.length_cons]; omega
    rw [hlen] at hr2
    have hr2' := hr2
    rw [show leoLoopK E (fun h t => sinksR E h (atRound pre.length (.attach z c)) t) c gg g d tx (post.length + m + 1 + pre.length) 0
        ((t.chan c).dests gg) t false = leoLoopK E (fun h t => sinksR E h (atRound pre.length (.attach z c)) t) c gg g d tx
        (post.length + m + 1 + pre.length) 0 (pre ++ (a, y') :: post) t false from by rw [← hsplit]] at hr2'
    obtain ⟨l2, hl2, hrec2⟩ := leoLoopK_attach (z := z) (fun j hj a u => sinks_atRound_ne hj rfl)
      (fun u => by
        show sinksR E _ _ u = _
        rw [sinks_atRound, confK, attachK_plain]) hsplit hsorted
      (by rw [hn.chan]; exact hkind) (by rw [hn.leo]; exact hleo)
      (by
        rw [hn.side, hside]
        rw [hn.addr, hn.chan] at hgg
        cases gg with
        | true => rw [if_pos (hgg.mp rfl)]; rfl
        | false => rw [if_neg (fun hm => by simpa using hgg.mpr hm)]; rfl)
      (by rw [hn.recv]; exact hyr) (by omega) hr2'
    rw [← h2, receivers_landed (s3 := s3) (b := b3) hl hl0 hl2, hrec2]
    have hfun : (fun x => (recvOf E t c d tx x).isSome) = fun x => (reachDev E s c d 0 x).isSome := by
      funext x; exact hn.recv
    have hay : a = (s.dev y').addr := (hkeys (a, y') (by rw [hsplit]; simp)).2
    rw [hfun, hn.addr, hsplit, hay]
    by_cases hlt : (s.dev y').addr.toNat < (s.dev z).addr.toNat
    · rw [if_pos hlt, if_pos hlt]
      have hfresh : ∀ x ∈ post, x.1 ≠ (s.dev z).addr := by
        intro x hx he
        have hxm : x ∈ (t.chan c).dests gg := by rw [hsplit]; simp [hx]
        obtain ⟨hxD, hxa⟩ := hkeys x hxm
        have := hs.unique x.2 hxD z hz (hxa ▸ he)
        exact hza (this ▸ List.mem_map_of_mem hxm)
      have hp := mapInsert_perm (z := z) hfresh
      have hzf : (reachDev E s c d 0 z).isSome = true := hzr
      have hp2 : (pre ++ [((s.dev y').addr, y')] ++ mapInsert (s.dev z).addr z post).Perm
          (((s.dev z).addr, z) :: (pre ++ ((s.dev y').addr, y') :: post)) := by
        refine (List.Perm.append_left _ hp).trans ?_
        refine List.perm_middle.trans ?_
        simp
      have := (hp2.map (·.2)).filter (fun x => (reachDev E s c d 0 x).isSome)
      simpa [hzf] using this
    · rw [if_neg hlt, if_neg hlt]
      simp

/-- Satellite 5, whose address is the greatest, attached while the frame is handed to satellite 1 or 3, gets it; with an
address between those of 1 and 3 it gets it only if attached in time. -/
example : sendOk traceNet (.mk 0 [1] (.mac (Demo.mac 2)) 0x0800 (atRound 1 (.attach 5 0))) (fun s2 =>
      decide (receivers s2.log = [1, 3, 5])) = true ∧
    (let net := traceNet.setDev 5 { traceNet.dev 5 with addr := Demo.mac 3 }
     sendOk net (.mk 0 [1] (.mac (Demo.mac 2)) 0x0800 (atRound 0 (.attach 5 0))) (fun s2 =>
       decide (receivers s2.log = [1, 5, 3])) = true ∧
     sendOk net (.mk 0 [1] (.mac (Demo.mac 2)) 0x0800 (atRound 1 (.attach 5 0))) (fun s2 =>
       decide (receivers s2.log = [1, 3])) = true) ∧
    (audience traceNet 0 0 (.mac (Demo.mac 2)))[1]? = some 3 ∧ 5 ∉ audience traceNet 0 0 (.mac (Demo.mac 2)) ∧
    (traceNet.dev 5).leo = true ∧ (traceNet.dev 5).side = .sat ∧ Reachable Demo.env traceNet 0 0 5 := by decide +kernel

/-- **C97.** A device that connected code attaches to a channel between satellites while a broadcast is being handed out
receives this broadcast too, after all others. -/
theorem C97_attached_meanwhile_isl {E : Env} {s s1 s2 : Sys} {d y z : DevId} {p : Bytes} {dest : Addr} {proto : UInt16}
    {c : ChanId} {i : Nat} (hc : (s.dev d).chan = some c) (hF : Floods s c (s.dev d).chanSlot dest)
    (hsl : (s.chan c).link[(s.dev d).chanSlot]? = some d) (hi : (s.chan c).link[i]? = some y) (his : i ≠ (s.dev d).chanSlot)
    (hy : y ∈ receivers (newLog s s1)) (hzr : Reachable E s c d z) (h1 : send E s d p dest proto = .ok s1)
    (h2 : sendR E (.mk d p dest proto (atRound i (.attach z c))) s = .ok s2) :
    receivers (newLog s s2) = receivers (newLog s s1) ++ [z] := by
  rcases send_via_chan h1 with ⟨h0, _⟩ | ⟨t, c', f, g, tx, l, r, hn, hc', hl, hl0, htr, rfl, hK⟩
  · rw [h0] at hy; cases hy
  · rw [hc] at hc'
    injection hc' with hc'; subst hc'
    obtain ⟨l', hl', hrec⟩ := receivers_chan hn hsl htr
    rw [receivers_landed (s3 := r.1) (b := r.2) hl hl0 hl', hrec] at hy ⊢
    rw [List.mem_filter] at hy
    obtain ⟨_, hyr⟩ := hy
    obtain ⟨m, hm, hloop⟩ := isl_loop (E := E) (f := g) (tx := tx) (by rw [hn.chan]; exact hsl) (hn.floods hF)
      (fun h t => sinksR E h (atRound i (.attach z c)) t)
    rw [sendR_mk, hK _ atRound_only, hloop, Outcome.bind_eq_ok] at h2
    obtain ⟨r2, hr2, h2⟩ := h2
    rw [Outcome.bind_eq_ok] at hr2
    obtain ⟨s3, hs3, hr2⟩ := hr2
    injection hr2 with hr2
    injection h2 with h2
    have hilt : i < (t.chan c).link.length := by rw [hn.chan]; exact (List.getElem?_eq_some_iff.mp hi).1
    have hlen : (t.chan c).link.length + m = ((t.chan c).link.length + m - 1 - i) + 1 + i := by omega
    rw [hlen] at hs3
    obtain ⟨l2, hl2, hrec2⟩ := islLoopK_attach (z := z) (y := y) (fun j hj u => sinks_atRound_ne hj rfl)
      (fun u => by
        show sinksR E _ _ u = _
        rw [sinks_atRound_isl]; rfl)
      (by rw [hn.chan]; exact hF.1) (by rw [hn.chan]; exact hi) his
      (by rw [hn.chan]; exact (List.getElem?_eq_some_iff.mp hsl).1) (by rw [hn.recv]; exact hyr) (by omega) hs3
    have hau : audience s c (s.dev d).chanSlot dest = (s.chan c).link.eraseIdx (s.dev d).chanSlot := by
      obtain ⟨hk, _, rfl, hno⟩ := hF
      simp only [audience, hsl, hk]
      have : (s.chan c).link.find? (fun d => decide (Addr.mac (s.dev d).addr = .mac Mac48.broadcast)) = none := by
        rw [List.find?_eq_none]
        intro x hx
        simp [hno x hx]
      rw [this]
      simp
    rw [← h2, ← hr2, receivers_landed (s3 := s3) (b := true) hl hl0 hl2, hrec2, hau, hn.chan, List.filter_append]
    have hfun : (fun x => (recvOf E t c d tx x).isSome) = fun x => (reachDev E s c d 0 x).isSome := by
      funext x; exact hn.recv
    have hzf : (reachDev E s c d 0 z).isSome = true := hzr
    rw [hfun]
    simp [hzf]

/-- Satellite 7, attached while satellite 3 is served, gets the broadcast after satellite 5. -/
example : sendOk traceIsl (.mk 1 [1] (.mac Mac48.broadcast) 0x0800 (atRound 1 (.attach 7 1))) (fun s2 =>
      decide (receivers s2.log = [3, 5, 7])) = true ∧ Floods traceIsl 1 0 (.mac Mac48.broadcast) ∧
    Reachable Demo.env traceIsl 1 1 7 := by
  refine ⟨by decide +kernel, ⟨by decide +kernel, by decide +kernel, rfl, by decide +kernel⟩, by decide +kernel⟩

/-- **C97 (the claim without restriction is false).** A broadcast over a channel between satellites never ends if
the code connected to the trace source attaches a reachable device whenever it runs: however many rounds the loop is
given, it does not finish. -/
theorem C97_broadcast_never_ends {E : Env} {s : Sys} {d : DevId} {f : Bytes} {c : ChanId} {slot : Nat} {t : Time} {j : Nat}
    {y : DevId} {z : Nat → DevId} {k : Sinks} (hk : ∀ i u, k (.txrx i) u = step E u (.attach (z i) c))
    (hkind : (s.chan c).kind = .isl) (hslot : (s.chan c).link[slot]? = some d)
    (hnode : ∀ x ∈ (s.chan c).link, (s.dev x).node.isSome = true) (hj : (s.chan c).link[j]? = some y) (hjs : j ≠ slot)
    (hy : Reachable E s c d y) (hz : ∀ i, Reachable E s c d (z i)) (n : Nat) :
    islLoopK E k c f d slot t n 0 s = .fail .endlessLoop := by
  have hsrc : d ∈ (s.chan c).link := List.mem_of_getElem? hslot
  refine islLoopK_endless (z := z) (N := fun x => (s.dev x).node) (P := (s.dev d).txPower) (now := s.now) hk ?_
    (hnode d hsrc) n 0 s hkind rfl (fun _ => rfl) rfl hnode ⟨j, y, Nat.zero_le _, hjs, hj, ?_⟩ (List.getElem?_eq_some_iff.mp hslot).1
  · intro i u hu hn hp
    rw [recvOf_same (s := s) hu (hn d) hp (hn (z i)), recvOf_isSome]
    exact hz i
  · rw [recvOf_isSome]; exact hy

/-- The hypotheses are met by satellite 1 broadcasting to satellites 3 and 5 while 7 is attached again and again. -/
example (n : Nat) (f : Bytes) (t : Time) :
    islLoopK Demo.env (fun _ u => step Demo.env u (.attach 7 1)) 1 f 1 0 t n 0 traceIsl = .fail .endlessLoop :=
  C97_broadcast_never_ends (z := fun _ => 7) (j := 1) (y := 3) (fun _ _ => rfl) (by decide +kernel) (by decide +kernel)
    (by decide +kernel) (by decide +kernel) (by decide) (by decide +kernel) (fun _ => by decide +kernel) n

end Verif
