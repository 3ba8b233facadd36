import Mathlib.Tactic.ByContra
import Verif.Lemmas.Frame
import Verif.Spec.Frame
/-!
# Framing properties (C10 - C13)
-/

namespace Verif

/-- C10: framing round-trips payload, protocol and both addresses for every payload of at most 1492
bytes, with checksums on or off and for any FCS function. -/
theorem C10_framing_round_trip (k : Fcs) (p : Bytes) (src dst : Mac48) (proto : UInt16)
    (h : p.length ≤ Spec.maxIntact) :
    decode k (addHeader k p src dst proto) = .ok (.good p proto src dst) := by
  rw [decode_addHeader, if_pos (by simp only [Spec.maxIntact] at h; omega)]

example : decode ⟨true, fun b => UInt32.ofNat b.length⟩
    (addHeader ⟨true, fun b => UInt32.ofNat b.length⟩ [1, 2, 3] ⟨0, 0, 0, 0, 0, 1⟩ Mac48.broadcast 0x0800)
    = .ok (.good [1, 2, 3] 0x0800 ⟨0, 0, 0, 0, 0, 1⟩ Mac48.broadcast) :=
  C10_framing_round_trip _ _ _ _ _ (by decide)

/-- The receiver detects exactly the frames whose trailer disagrees with the FCS of the rest (when
checksums are enabled), and ignores the trailer otherwise. -/
theorem C10_fcs_mismatch_is_dropped (crc : Bytes → UInt32) (body : Bytes) (fcs : UInt32)
    (h : crc body ≠ fcs) :
    decode ⟨true, crc⟩ (body ++ le32 fcs) = .ok (.badFcs body) := by
  unfold decode
  rw [removeTrailer_append]
  simp [Fcs.check, h]

example : decode ⟨true, fun b => UInt32.ofNat b.length⟩ ([1, 2, 3] ++ le32 7) = .ok (.badFcs [1, 2, 3]) :=
  C10_fcs_mismatch_is_dropped _ _ _ (by decide)

/-- The four-byte trailer is irrelevant when checksums are disabled. -/
theorem C10_trailer_ignored_without_checksum (crc : Bytes → UInt32) (body : Bytes) (x y : UInt32) :
    decode ⟨false, crc⟩ (body ++ le32 x) = decode ⟨false, crc⟩ (body ++ le32 y) := by
  unfold decode
  rw [removeTrailer_append, removeTrailer_append]
  simp [Fcs.check]

/-- C11 (intended): payloads up to the MTU are delivered intact. -/
def MtuDeliversIntact (mtu : Nat) : Prop :=
  ∀ (k : Fcs) (p : Bytes) (src dst : Mac48) (proto : UInt16), p.length ≤ mtu →
    decode k (addHeader k p src dst proto) = .ok (.good p proto src dst)

/-- C11 is false for the default MTU of 1500 (model/mock-net-device.cc:48): a 1500 byte payload comes
out 8 bytes longer and with protocol 1508. -/
theorem C11_default_mtu_not_intact : ¬ MtuDeliversIntact 1500 := by
  intro h
  obtain ⟨p, hp⟩ : ∃ p : Bytes, p.length = 1500 := ⟨List.replicate 1500 0, List.length_replicate⟩
  have h1 := h ⟨false, fun _ => 0⟩ p Mac48.broadcast Mac48.broadcast 0x0800 (by omega)
  rw [decode_addHeader, if_neg (by omega), if_neg (by omega)] at h1
  injection h1 with h1
  injection h1 with h2
  have := congrArg List.length h2
  simp [llcHeader, be16] at this; omega

/-- C11, exact range: an MTU is safe iff it is at most 1492. Missing for the full claim: the code
accepts any MTU up to 65535 and defaults to 1500. -/
theorem C11_mtu_intact_partial (mtu : Nat) : MtuDeliversIntact mtu ↔ mtu ≤ 1492 := by
  constructor
  · intro h
    by_contra hc
    obtain ⟨p, hp⟩ : ∃ p : Bytes, p.length = 1493 := ⟨List.replicate 1493 0, List.length_replicate⟩
    have h1 := h ⟨false, fun _ => 0⟩ p Mac48.broadcast Mac48.broadcast 0x0800 (by omega)
    rw [decode_addHeader, if_neg (by omega), if_neg (by omega)] at h1
    injection h1 with h1
    injection h1 with h2
    have := congrArg List.length h2
    simp [llcHeader, be16] at this; omega
  · intro h k p src dst proto hp
    exact C10_framing_round_trip k p src dst proto (by simp only [Spec.maxIntact]; omega)

/-- C12: the decoded result for every payload length. -/
theorem C12_decode_all_lengths (k : Fcs) (p : Bytes) (src dst : Mac48) (proto : UInt16) :
    (p.length ≤ 1492 →
      decode k (addHeader k p src dst proto) = .ok (.good p proto src dst)) ∧
    (1492 < p.length → 1500 < (p.length + 8) % 65536 →
      decode k (addHeader k p src dst proto) =
        .ok (.good ([0xaa, 0xaa, 0x03, 0, 0, 0] ++ Spec.two proto.toNat ++ p)
              (UInt16.ofNat (p.length + 8)) src dst)) ∧
    (1492 < p.length → (p.length + 8) % 65536 ≤ 1500 →
      decode k (addHeader k p src dst proto) = .fail .padTooLong) := by
  refine ⟨fun h => ?_, fun h1 h2 => ?_, fun h1 h2 => ?_⟩ <;> rw [decode_addHeader]
  · rw [if_pos (by omega)]
  · rw [if_neg (by omega), if_neg (by omega)]; rfl
  · rw [if_neg (by omega), if_pos h2]

/-- C12, corollary: whatever the size, if something is delivered under the protocol number given to
Send and the packet has at most 65527 bytes, then either it is the payload itself or the protocol
number happens to be the length plus 8; a truncated payload is never delivered. -/
theorem C12_no_truncation (k : Fcs) (p : Bytes) (src dst : Mac48) (proto q : UInt16) (r : Bytes)
    (s d : Mac48) (h : decode k (addHeader k p src dst proto) = .ok (.good r q s d)) :
    p.length ≤ r.length ∧ p <:+ r ∧ s = src ∧ d = dst ∧
      ((r = p ∧ q = proto) ∨ (r.length = p.length + 8 ∧ q = UInt16.ofNat (p.length + 8))) := by
  rw [decode_addHeader] at h
  split at h
  · injection h with h; injection h with h1 h2 h3 h4
    subst h1 h2 h3 h4
    simp
  · split at h
    · cases h
    · injection h with h; injection h with h1 h2 h3 h4
      subst h1 h2 h3 h4
      refine ⟨by simp, List.suffix_append _ _, rfl, rfl, Or.inr ⟨?_, rfl⟩⟩
      simp [llcHeader, be16]

example (p : Bytes) (h : p.length = 1500) : decode ⟨false, fun _ => 0⟩
    (addHeader ⟨false, fun _ => 0⟩ p Mac48.broadcast Mac48.broadcast 0x0800)
    = .ok (.good ([0xaa, 0xaa, 0x03, 0, 0, 0] ++ Spec.two 0x0800 ++ p) 1508
        Mac48.broadcast Mac48.broadcast) := by
  have := (C12_decode_all_lengths ⟨false, fun _ => 0⟩ p Mac48.broadcast Mac48.broadcast 0x0800).2.1
    (by omega) (by omega)
  rw [h] at this
  exact this

example (p : Bytes) (h : p.length = 65528) : decode ⟨false, fun _ => 0⟩
    (addHeader ⟨false, fun _ => 0⟩ p Mac48.broadcast Mac48.broadcast 0x0800) = .fail .padTooLong :=
  (C12_decode_all_lengths _ _ _ _ _).2.2 (by omega) (by omega)

/-- C13: the frame is the specified wire image followed by four trailer bytes, its length is the
payload plus 26 bytes with a minimum of 64. -/
theorem C13_frame_layout (k : Fcs) (p : Bytes) (src dst : Mac48) (proto : UInt16) :
    (∃ t : Bytes, t.length = 4 ∧ addHeader k p src dst proto = Spec.wire p proto src dst ++ t) ∧
    (addHeader k p src dst proto).length = max 64 (p.length + 26) := by
  have hw : ethHeader dst src (UInt16.ofNat (p.length + 8)) ++ framePayload p proto
      = Spec.wire p proto src dst := by
    rw [framePayload_eq]
    simp [Spec.wire, Spec.two, ethHeader, Mac48.bytes, be16, llcHeader, UInt16.toNat_ofNat']
  constructor
  · refine ⟨_, le32_length (k.calc (ethHeader dst src (UInt16.ofNat (p.length + 8)) ++ framePayload p proto)), ?_⟩
    rw [addHeader_eq, ← hw]
  · rw [addHeader_eq, hw]
    simp [Spec.wire, Spec.two, le32_length]
    omega

example : (addHeader ⟨false, fun _ => 0⟩ [1] Mac48.broadcast Mac48.broadcast 0).length = 64 := by
  rw [(C13_frame_layout _ _ _ _ _).2]; rfl

/-- C13: distinct (payload, protocol, addresses) of at most 1492 bytes give distinct frames. -/
theorem C13_frames_injective (k : Fcs) (p p' : Bytes) (s s' d d' : Mac48) (q q' : UInt16)
    (h : p.length ≤ 1492) (h' : p'.length ≤ 1492)
    (he : addHeader k p s d q = addHeader k p' s' d' q') : p = p' ∧ s = s' ∧ d = d' ∧ q = q' := by
  have h1 := C10_framing_round_trip k p s d q h
  rw [he, C10_framing_round_trip k p' s' d' q' h'] at h1
  injection h1 with h1; injection h1 with h2 h3 h4 h5
  exact ⟨h2.symm, h4.symm, h5.symm, h3.symm⟩

end Verif
