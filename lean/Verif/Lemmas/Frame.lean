import Verif.Model.Frame
/-! Helper lemmas about the framing model. -/

namespace Verif

theorem unBe16_be16 (x : UInt16) :
    unBe16 (UInt8.ofNat (x.toNat / 256)) (UInt8.ofNat (x.toNat % 256)) = x := by
  have h := x.toNat_lt
  apply UInt16.toNat_inj.mp
  simp only [unBe16, UInt16.toNat_ofNat', UInt8.toNat_ofNat']
  omega

theorem unLe32_le32 (x : UInt32) :
    unLe32 (UInt8.ofNat (x.toNat % 256)) (UInt8.ofNat (x.toNat / 256 % 256))
      (UInt8.ofNat (x.toNat / 65536 % 256)) (UInt8.ofNat (x.toNat / 16777216)) = x := by
  have h := x.toNat_lt
  apply UInt32.toNat_inj.mp
  simp only [unLe32, UInt32.toNat_ofNat', UInt8.toNat_ofNat']
  omega

theorem le32_length (x : UInt32) : (le32 x).length = 4 := rfl

theorem removeTrailer_append (p : Bytes) (x : UInt32) :
    removeTrailer (p ++ le32 x) = .ok (p, x) := by
  unfold removeTrailer
  have h : (p ++ le32 x).length - 4 = p.length := by simp [le32_length]
  rw [h, List.drop_left, List.take_left]
  simp only [le32]
  rw [unLe32_le32]

theorem removeEthHeader_append (dst src : Mac48) (l : UInt16) (p : Bytes) :
    removeEthHeader (ethHeader dst src l ++ p) = .ok (p, dst, src, l) := by
  simp only [ethHeader, Mac48.bytes, be16, List.cons_append, List.nil_append, removeEthHeader]
  rw [unBe16_be16]

theorem removeLlcHeader_append (x : UInt16) (p : Bytes) :
    removeLlcHeader (llcHeader x ++ p) = .ok (p, x) := by
  simp only [llcHeader, be16, List.cons_append, List.nil_append, removeLlcHeader]
  rw [unBe16_be16]

theorem Fcs.check_calc (k : Fcs) (b : Bytes) : k.check (k.calc b) b = true := by
  unfold Fcs.check Fcs.calc
  cases k.enabled <;> simp

/-- The bytes between the Ethernet header and the trailer. -/
def framePayload (p : Bytes) (proto : UInt16) : Bytes :=
  let p1 := llcHeader proto ++ p
  if p1.length < 46 then p1 ++ List.replicate (46 - p1.length) 0 else p1

theorem addHeader_eq (k : Fcs) (p : Bytes) (src dst : Mac48) (proto : UInt16) :
    addHeader k p src dst proto =
      (ethHeader dst src (UInt16.ofNat (p.length + 8)) ++ framePayload p proto)
        ++ le32 (k.calc (ethHeader dst src (UInt16.ofNat (p.length + 8)) ++ framePayload p proto)) := by
  have h : (llcHeader proto ++ p).length = p.length + 8 := by simp [llcHeader, be16]
  simp only [addHeader, framePayload, h]

theorem framePayload_eq (p : Bytes) (proto : UInt16) :
    framePayload p proto = llcHeader proto ++ p ++ List.replicate (38 - p.length) 0 := by
  have h : (llcHeader proto ++ p).length = p.length + 8 := by simp [llcHeader, be16]
  unfold framePayload
  simp only [h]
  split
  · have : 46 - (p.length + 8) = 38 - p.length := by omega
    rw [this]
  · have : 38 - p.length = 0 := by omega
    rw [this]; simp

theorem framePayload_length (p : Bytes) (proto : UInt16) :
    (framePayload p proto).length = p.length + 8 + (38 - p.length) := by
  rw [framePayload_eq]; simp [llcHeader, be16]; omega

theorem decode_addHeader (k : Fcs) (p : Bytes) (src dst : Mac48) (proto : UInt16) :
    decode k (addHeader k p src dst proto) =
      if p.length + 8 ≤ 1500 then .ok (.good p proto src dst)
      else if (p.length + 8) % 65536 ≤ 1500 then .fail .padTooLong
      else .ok (.good (llcHeader proto ++ p) (UInt16.ofNat (p.length + 8)) src dst) := by
  have hlen := framePayload_length p proto
  have hval : (UInt16.ofNat (p.length + 8)).toNat = (p.length + 8) % 65536 := by
    simp [UInt16.toNat_ofNat']
  have hle : (UInt16.ofNat (p.length + 8) ≤ 1500) ↔ (p.length + 8) % 65536 ≤ 1500 := by
    rw [UInt16.le_iff_toNat_le, hval]; rfl
  rw [addHeader_eq]
  unfold decode
  rw [removeTrailer_append]
  simp only [Outcome.ok_bind, Fcs.check_calc, Bool.not_true, Bool.false_eq_true, if_false,
    removeEthHeader_append, hle, hval, hlen]
  by_cases h1 : p.length + 8 ≤ 1500
  · have h2 : (p.length + 8) % 65536 ≤ 1500 := by omega
    have h3 : (p.length + 8) % 65536 = p.length + 8 := by omega
    simp only [h1, h3, if_true]
    rw [if_neg (by omega), if_neg (by omega)]
    have h4 : (framePayload p proto).take
        (p.length + 8 + (38 - p.length) - (p.length + 8 + (38 - p.length) - (p.length + 8)))
        = llcHeader proto ++ p := by
      rw [framePayload_eq]
      have : p.length + 8 + (38 - p.length) - (p.length + 8 + (38 - p.length) - (p.length + 8))
        = (llcHeader proto ++ p).length := by simp [llcHeader, be16]
      rw [this, List.take_left]
    rw [h4, removeLlcHeader_append]
    rfl
  · simp only [h1, if_false]
    by_cases h2 : (p.length + 8) % 65536 ≤ 1500
    · simp only [h2, if_true]
      rw [if_neg (by omega), if_pos (by omega)]
    · simp only [h2, if_false]
      have : framePayload p proto = llcHeader proto ++ p := by
        rw [framePayload_eq]
        have : 38 - p.length = 0 := by omega
        rw [this]; simp
      rw [this]

end Verif
