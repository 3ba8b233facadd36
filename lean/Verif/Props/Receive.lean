import Mathlib.Tactic.ByContra
import Mathlib.Tactic.Linarith
import Verif.Demo
import Verif.Spec.Receive
import Verif.Lemmas.NetStep
import Verif.Lemmas.Frame
/-!
# The receive side of a device (C14)
-/

namespace Verif
open Spec

theorem effectivePower_eq (v : Dev) (rx : Power) : calcRxPower v rx = effectivePower v rx := by
  unfold calcRxPower effectivePower
  cases v.leo
  · rfl
  · simp only [if_true]; linarith

theorem isBroadcast_bytes (m : Mac48) :
    m.isBroadcast = true ↔ m.bytes = [0xff, 0xff, 0xff, 0xff, 0xff, 0xff] := by
  obtain ⟨a, b, c, d, e, f⟩ := m
  simp [Mac48.isBroadcast, Mac48.broadcast, Mac48.bytes]

theorem isGroup_bit (m : Mac48) : m.isGroup = true ↔ m.b0.toNat % 2 = 1 := by
  unfold Mac48.isGroup
  simp [← UInt8.toNat_inj]

theorem packetType_spec (dst own : Mac48) : TypeFor dst own (packetType dst own) := by
  unfold packetType
  split
  · rename_i h; exact (isBroadcast_bytes dst).mp h
  · rename_i h
    have hb : dst.bytes ≠ [0xff, 0xff, 0xff, 0xff, 0xff, 0xff] := fun hh => h ((isBroadcast_bytes dst).mpr hh)
    split
    · rename_i h2; exact ⟨hb, h2⟩
    · rename_i h2
      split
      · rename_i h3; exact ⟨hb, h2, (isGroup_bit dst).mp h3⟩
      · rename_i h3
        refine ⟨hb, h2, ?_⟩
        have : ¬ dst.b0.toNat % 2 = 1 := fun hh => h3 ((isGroup_bit dst).mpr hh)
        omega

theorem forMe_iff (dst own : Mac48) : ForMe dst own ↔ packetType dst own ≠ .otherHost := by
  have := packetType_spec dst own
  unfold ForMe
  cases h : packetType dst own <;> rw [h] at this <;> simp only [TypeFor] at this
  · exact ⟨fun _ => by simp, fun _ => Or.inr (Or.inl this.2)⟩
  · exact ⟨fun _ => by simp, fun _ => Or.inl this⟩
  · exact ⟨fun _ => by simp, fun _ => Or.inr (Or.inr this.2.2)⟩
  · obtain ⟨h1, h2, h3⟩ := this
    simp [h1, h2, h3]

/-- **C14.** `Receive` for a frame that decodes to packet `p` with protocol `proto` and addresses `sa`,
`da`.  After the call itself, at the same instant, exactly these things happen: the receive callback
gets (p, proto, sa), once, iff the frame comes from another device, is audible and is addressed to this
device; the promiscuous callback, if set, gets every audible frame of other devices once, with the right
type; own frames cause one MacRxDrop, inaudible ones one PhyRxDrop.  No device, channel or scheduled
event changes. -/
theorem C14_receive_filter {E : Env} {s s' : Sys} {d src : DevId} {f p : Bytes} {rx : Power} {proto : UInt16}
    {sa da : Mac48} (h : receive E s d f src rx = .ok s') (hdec : decode E.fcs f = .ok (.good p proto sa da)) :
    ∃ l : List Ev, s' = { s with log := s.log ++ ((s.now, .recvCall d f src rx) :: l.map (fun e => (s.now, e))) } ∧
      (let aud := Audible (s.dev d) rx (E.corrupt d s.now (s.log.length + 1) f)
       (src ≠ d ∧ aud ∧ ForMe da (s.dev d).addr → upcalls d l = [(p, proto, sa)]) ∧
       (¬ (src ≠ d ∧ aud ∧ ForMe da (s.dev d).addr) → upcalls d l = []) ∧
       (src ≠ d ∧ aud ∧ (s.dev d).promiscCb = true →
          ∃ ty, TypeFor da (s.dev d).addr ty ∧ promiscs d l = [(p, proto, sa, da, ty)]) ∧
       (¬ (src ≠ d ∧ aud ∧ (s.dev d).promiscCb = true) → promiscs d l = []) ∧
       (src = d → drops d l = [.mac]) ∧
       (src ≠ d → ¬ aud → drops d l = [.phy]) ∧
       (src ≠ d → aud → drops d l = [])) := by
  unfold receive at h
  simp only [Sys.emit, effectivePower_eq, List.length_append, List.length_singleton] at h
  unfold Audible
  by_cases hsd : src = d
  · rw [if_pos hsd] at h
    injection h with h
    refine ⟨[.macRxDrop d f], by rw [← h]; simp, ?_⟩
    simp [hsd, upcalls, promiscs, drops]
  rw [if_neg hsd] at h
  by_cases hth : effectivePower (s.dev d) rx < (s.dev d).rxThreshold
  · rw [if_pos hth] at h
    injection h with h
    refine ⟨[.phyRxEnd d f, .phyRxDrop d f], by rw [← h]; simp, ?_⟩
    have : ¬ (s.dev d).rxThreshold ≤ effectivePower (s.dev d) rx := Rat.not_le.mpr hth
    simp [hsd, this, upcalls, promiscs, drops]
  rw [if_neg hth] at h
  have hth' : (s.dev d).rxThreshold ≤ effectivePower (s.dev d) rx := Rat.not_lt.mp hth
  by_cases hco : E.corrupt d s.now (s.log.length + 1) f = true
  · rw [if_pos hco] at h
    injection h with h
    refine ⟨[.phyRxEnd d f, .phyRxDrop d f], by rw [← h]; simp, ?_⟩
    simp [hsd, hco, upcalls, promiscs, drops]
  rw [if_neg hco] at h
  have hco' : E.corrupt d s.now (s.log.length + 1) f = false := by simpa using hco
  rw [hdec] at h
  simp only [Outcome.ok_bind] at h
  have hty := packetType_spec da (s.dev d).addr
  have hfm := forMe_iff da (s.dev d).addr
  cases hpc : (s.dev d).promiscCb <;> simp only [hpc, Bool.false_eq_true, if_false, if_true] at h <;>
    by_cases hot : packetType da (s.dev d).addr = .otherHost
  · rw [if_pos hot] at h
    injection h with h
    have hnf : ¬ ForMe da (s.dev d).addr := by rw [hfm]; simp [hot]
    refine ⟨[.phyRxEnd d f, .promiscSniffer d f], by rw [← h]; simp, ?_⟩
    simp [hsd, hco', hth', hnf, upcalls, promiscs, drops]
  · rw [if_neg hot] at h
    have hnf : ForMe da (s.dev d).addr := by rw [hfm]; exact hot
    by_cases hcb : (s.dev d).rxCb = true
    · rw [if_pos hcb] at h
      injection h with h
      refine ⟨[.phyRxEnd d f, .promiscSniffer d f, .macRx d f, .rxCallback d p proto sa],
        by rw [← h]; simp, ?_⟩
      simp [hsd, hco', hth', hnf, upcalls, promiscs, drops]
    · rw [if_neg hcb] at h; cases h
  · rw [if_pos hot] at h
    injection h with h
    have hnf : ¬ ForMe da (s.dev d).addr := by rw [hfm]; simp [hot]
    refine ⟨[.phyRxEnd d f, .promiscSniffer d f, .macPromiscRx d f,
      .promiscCallback d p proto sa da (packetType da (s.dev d).addr)], by rw [← h]; simp, ?_⟩
    simp [hsd, hco', hth', hnf, upcalls, promiscs, drops, hty]
  · rw [if_neg hot] at h
    have hnf : ForMe da (s.dev d).addr := by rw [hfm]; exact hot
    by_cases hcb : (s.dev d).rxCb = true
    · rw [if_pos hcb] at h
      injection h with h
      refine ⟨[.phyRxEnd d f, .promiscSniffer d f, .macPromiscRx d f,
        .promiscCallback d p proto sa da (packetType da (s.dev d).addr), .macRx d f,
        .rxCallback d p proto sa], by rw [← h]; simp, ?_⟩
      simp [hsd, hco', hth', hnf, upcalls, promiscs, drops, hty]
    · rw [if_neg hcb] at h; cases h

/-- C14 for frames with a wrong FCS: never passed up, exactly one drop trace. -/
theorem C14_bad_fcs_is_dropped {E : Env} {s s' : Sys} {d src : DevId} {f rest : Bytes} {rx : Power}
    (h : receive E s d f src rx = .ok s') (hdec : decode E.fcs f = .ok (.badFcs rest)) :
    ∃ l : List Ev, s' = { s with log := s.log ++ ((s.now, .recvCall d f src rx) :: l.map (fun e => (s.now, e))) } ∧
      upcalls d l = [] ∧ promiscs d l = [] ∧ drops d l = [if src = d then .mac else .phy] := by
  unfold receive at h
  simp only [Sys.emit, effectivePower_eq, List.length_append, List.length_singleton] at h
  by_cases hsd : src = d
  · rw [if_pos hsd] at h
    injection h with h
    exact ⟨[.macRxDrop d f], by rw [← h]; simp, by simp [hsd, upcalls, promiscs, drops]⟩
  rw [if_neg hsd, hdec] at h
  by_cases hth : effectivePower (s.dev d) rx < (s.dev d).rxThreshold
  · rw [if_pos hth] at h
    injection h with h
    exact ⟨[.phyRxEnd d f, .phyRxDrop d f], by rw [← h]; simp, by simp [hsd, upcalls, promiscs, drops]⟩
  rw [if_neg hth] at h
  by_cases hco : E.corrupt d s.now (s.log.length + 1) f = true
  · rw [if_pos hco] at h
    injection h with h
    exact ⟨[.phyRxEnd d f, .phyRxDrop d f], by rw [← h]; simp, by simp [hsd, upcalls, promiscs, drops]⟩
  rw [if_neg hco] at h
  simp only [Outcome.ok_bind] at h
  injection h with h
  exact ⟨[.phyRxEnd d f, .phyRxDrop d rest], by rw [← h]; simp, by simp [hsd, upcalls, promiscs, drops]⟩

/-- C14 end to end: a frame built by `Send` from a payload of at most 1492 bytes is always received
without fault by a device that has a receive callback, and the payload comes out as it went in. -/
theorem C14_framed_packet {E : Env} {s : Sys} {d src : DevId} {p : Bytes} {rx : Power} {proto : UInt16}
    {sa da : Mac48} (hp : p.length ≤ 1492) (hcb : (s.dev d).rxCb = true) :
    ∃ s' l, receive E s d (addHeader E.fcs p sa da proto) src rx = .ok s' ∧
      s'.log = s.log ++ ((s.now, .recvCall d (addHeader E.fcs p sa da proto) src rx) :: l.map (fun e => (s.now, e))) ∧
      (upcalls d l = [(p, proto, sa)] ↔ src ≠ d ∧
        Audible (s.dev d) rx (E.corrupt d s.now (s.log.length + 1) (addHeader E.fcs p sa da proto)) ∧
        ForMe da (s.dev d).addr) := by
  have hdec : decode E.fcs (addHeader E.fcs p sa da proto) = .ok (.good p proto sa da) := by
    rw [decode_addHeader, if_pos (by omega)]
  have hok : ∃ s', receive E s d (addHeader E.fcs p sa da proto) src rx = .ok s' := by
    unfold receive
    simp only [hdec, Outcome.ok_bind]
    split
    · exact ⟨_, rfl⟩
    · split
      · exact ⟨_, rfl⟩
      · split
        · exact ⟨_, rfl⟩
        · split
          · exact ⟨_, rfl⟩
          · rw [if_pos (by simpa [Sys.emit] using hcb)]; exact ⟨_, rfl⟩
  obtain ⟨s', hs'⟩ := hok
  obtain ⟨l, h1, h2, h3, _⟩ := C14_receive_filter hs' hdec
  refine ⟨s', l, hs', by rw [h1], ?_⟩
  constructor
  · intro hu
    by_contra hc
    rw [h3 hc] at hu; cases hu
  · exact h2

/-- A unicast packet for the device, one for another host, one too weak, one of its own, and a
group packet: what the callbacks see. -/
example :
    let dev := { Dev.fresh true .sat 0 (Demo.mac 1) with rxThreshold := -100, rxGain := 30, rxLoss := 5, promiscCb := true }
    let s : Sys := { Demo.sys with dev := fun _ => dev }
    let up (da : Mac48) (src : DevId) (rx : Power) : Option (Nat × Nat) :=
      match receive Demo.env s 0 (addHeader Demo.env.fcs [1, 2] (Demo.mac 9) da 0x0800) src rx with
      | .ok s' => some ((upcalls 0 (s'.log.map Prod.snd)).length, (promiscs 0 (s'.log.map Prod.snd)).length)
      | .fail _ => none
    up (Demo.mac 1) 7 (-125) = some (1, 1) ∧ up (Demo.mac 2) 7 (-125) = some (0, 1) ∧
    up (Demo.mac 1) 7 (-126) = some (0, 0) ∧ up (Demo.mac 1) 0 0 = some (0, 0) ∧
    up ⟨1, 0, 0, 0, 0, 0⟩ 7 0 = some (1, 1) ∧ up Mac48.broadcast 7 0 = some (1, 1) := by
  decide +kernel

/-- A frame with a wrong FCS, decoded with checksums enabled. -/
example : decode ⟨true, fun _ => 5⟩ (addHeader ⟨true, fun _ => 6⟩ [1, 2] (Demo.mac 9) (Demo.mac 1) 0x0800)
    = .ok (.badFcs ((addHeader ⟨true, fun _ => 6⟩ [1, 2] (Demo.mac 9) (Demo.mac 1) 0x0800).take 60)) := by
  decide +kernel

end Verif
