import Mathlib.Tactic.ByContra
import Verif.Lemmas.NetInv
/-! Which faults an operation can raise, and under which condition. -/

namespace Verif
open Spec

theorem deliver_fail {E : Env} {s : Sys} {c : ChanId} {f : Bytes} {src dst : DevId} {t : Time} {e : Fault}
    (h : deliver E s c f src dst t = .fail e) :
    e = .nullNode ∧ ((s.dev src).node = none ∨ (s.dev dst).node = none) := by
  rw [deliver_eq] at h
  split at h
  · cases h
  · rename_i hn
    injection h with h
    refine ⟨h.symm, ?_⟩
    cases h1 : (s.dev src).node with
    | none => left; rfl
    | some _ =>
      cases h2 : (s.dev dst).node with
      | none => right; rfl
      | some _ => simp [h1, h2] at hn

theorem deliverAll_fail {E : Env} {c : ChanId} {f : Bytes} {src : DevId} {t : Time} {ds : List DevId} {s : Sys}
    {r : Bool} {e : Fault} (h : deliverAll E c f src t ds s r = .fail e) :
    e = .nullNode ∧ ∃ x, (s.dev x).node = none := by
  induction ds generalizing s r with
  | nil => cases h
  | cons d ds ih =>
    simp only [deliverAll] at h
    rw [Outcome.bind_eq_fail] at h
    rcases h with h | ⟨⟨s1, ok⟩, h1, h2⟩
    · obtain ⟨h1, h2 | h2⟩ := deliver_fail h
      · exact ⟨h1, _, h2⟩
      · exact ⟨h1, _, h2⟩
    · obtain ⟨rfl, _⟩ := deliver_ok h1
      obtain ⟨h3, x, hx⟩ := ih h2
      exact ⟨h3, x, by simpa [addRecvs] using hx⟩

theorem deliverOthers_fail {E : Env} {c : ChanId} {f : Bytes} {src : DevId} {slot : Nat} {t : Time}
    {ds : List DevId} {i : Nat} {s : Sys} {e : Fault} (h : deliverOthers E c f src slot t ds i s = .fail e) :
    e = .nullNode ∧ ∃ x, (s.dev x).node = none := by
  induction ds generalizing i s with
  | nil => cases h
  | cons d ds ih =>
    simp only [deliverOthers] at h
    split at h
    · exact ih h
    · rw [Outcome.bind_eq_fail] at h
      rcases h with h | ⟨⟨s1, ok⟩, h1, h2⟩
      · obtain ⟨h1, h2 | h2⟩ := deliver_fail h
        · exact ⟨h1, _, h2⟩
        · exact ⟨h1, _, h2⟩
      · obtain ⟨rfl, _⟩ := deliver_ok h1
        obtain ⟨h3, x, hx⟩ := ih h2
        exact ⟨h3, x, by simpa [addRecvs] using hx⟩

/-- A device whose address is indexed on both sides of its LEO channel. -/
def Ambiguous (s : Sys) (c : ChanId) (slot : Nat) : Prop :=
  (s.chan c).kind = .leo ∧ ∃ src, (s.chan c).link[slot]? = some src ∧
    mapHas (s.dev src).addr (s.chan c).gnd = true ∧ mapHas (s.dev src).addr (s.chan c).sat = true

theorem chanTransmit_fail {E : Env} {s : Sys} {c : ChanId} {f : Bytes} {slot : Nat} {dest : Addr} {t : Time}
    {e : Fault} (h : chanTransmit E s c f slot dest t = .fail e) :
    (e = .nullNode ∧ ∃ x, (s.dev x).node = none) ∨ (e = .bothSides ∧ Ambiguous s c slot) ∨
      (e = .notAMac ∧ dest = .other) := by
  unfold chanTransmit at h
  split at h
  · rename_i hk
    unfold leoTransmit at h
    split at h
    · cases h
    · rename_i src hsrc
      simp only at h
      split at h
      · rename_i hboth
        injection h with h
        rw [Bool.and_eq_true] at hboth
        exact Or.inr (Or.inl ⟨h.symm, hk, src, hsrc, hboth⟩)
      · split at h
        · exact Or.inl (deliverAll_fail h)
        · split at h
          · exact Or.inl (deliverAll_fail h)
          · cases h
  · unfold islTransmit at h
    split at h
    · cases h
    · split at h
      · obtain ⟨h1, h2 | h2⟩ := deliver_fail h
        · exact Or.inl ⟨h1, _, h2⟩
        · exact Or.inl ⟨h1, _, h2⟩
      · split at h
        · injection h with h; exact Or.inr (Or.inr ⟨h.symm, rfl⟩)
        · split at h
          · rw [Outcome.bind_eq_fail] at h
            rcases h with h | ⟨s1, _, h2⟩
            · exact Or.inl (deliverOthers_fail h)
            · cases h2
          · cases h

theorem transmitStart_fail {E : Env} {s : Sys} {d : DevId} {f : Bytes} {dest : Addr} {e : Fault}
    (h : transmitStart E s d f dest = .fail e) :
    (e = .txNotReady ∧ (s.dev d).busy = true) ∨ (e = .nullChannel ∧ (s.dev d).chan = none) ∨
    (e = .nullNode ∧ ∃ x, (s.dev x).node = none) ∨
    (e = .bothSides ∧ ∃ c, (s.dev d).chan = some c ∧ Ambiguous s c (s.dev d).chanSlot) ∨
    (e = .notAMac ∧ dest = .other) := by
  unfold transmitStart at h
  simp only at h
  split at h
  · rename_i hb
    injection h with h; exact Or.inl ⟨h.symm, hb⟩
  · split at h
    · rename_i hc
      injection h with h; exact Or.inr (Or.inl ⟨h.symm, hc⟩)
    · rename_i c hc
      rw [Outcome.bind_eq_fail] at h
      rcases h with h | ⟨⟨s1, ok⟩, _, h2⟩
      · rcases chanTransmit_fail h with ⟨h1, x, hx⟩ | ⟨h1, hk, src, h2, h3, h4⟩ | ⟨h1, h2⟩
        · refine Or.inr (Or.inr (Or.inl ⟨h1, x, ?_⟩))
          simp only [Sys.emit, Sys.schedule, Sys.setDev] at hx
          by_cases hxd : x = d
          · subst hxd; simpa using hx
          · simpa [hxd] using hx
        · refine Or.inr (Or.inr (Or.inr (Or.inl ⟨h1, c, hc, hk, src, h2, ?_⟩)))
          simp only [Sys.emit, Sys.schedule, Sys.setDev] at h3 h4
          by_cases hxd : src = d
          · subst hxd; simp at h3 h4; exact ⟨h3, h4⟩
          · simp [hxd] at h3 h4; exact ⟨h3, h4⟩
        · exact Or.inr (Or.inr (Or.inr (Or.inr ⟨h1, h2⟩)))
      · simp only at h2
        split at h2 <;> cases h2

theorem transmitComplete_fail {E : Env} {s : Sys} {d : DevId} {dest : Addr} {e : Fault}
    (h : transmitComplete E s d dest = .fail e) :
    (e = .txNotBusy ∧ (s.dev d).busy = false) ∨ (e = .noCurrentPacket ∧ (s.dev d).cur = none) ∨
    (e = .nullQueue ∧ (s.dev d).hasQueue = false) ∨
    (e = .nullChannel ∧ (s.dev d).chan = none) ∨
    (e = .nullNode ∧ ∃ x, (s.dev x).node = none) ∨
    (e = .bothSides ∧ ∃ c, (s.dev d).chan = some c ∧ Ambiguous s c (s.dev d).chanSlot) ∨
    (e = .notAMac ∧ dest = .other) := by
  unfold transmitComplete at h
  simp only at h
  split at h
  · rename_i hb
    injection h with h; exact Or.inl ⟨h.symm, by simpa using hb⟩
  · split at h
    · rename_i hc
      injection h with h; exact Or.inr (Or.inl ⟨h.symm, hc⟩)
    · split at h
      · rename_i hq
        injection h with h; exact Or.inr (Or.inr (Or.inl ⟨h.symm, by simpa using hq⟩))
      · split at h
        · cases h
        · rcases transmitStart_fail h with ⟨_, h2⟩ | ⟨h1, h2⟩ | ⟨h1, x, h2⟩ | ⟨h1, c, h2, hk, src, h3, h4⟩ | h5
          · simp [Sys.emit, Sys.setDev] at h2
          · exact Or.inr (Or.inr (Or.inr (Or.inl ⟨h1, by simpa [Sys.emit, Sys.setDev] using h2⟩)))
          · refine Or.inr (Or.inr (Or.inr (Or.inr (Or.inl ⟨h1, x, ?_⟩))))
            simp only [Sys.emit, Sys.setDev] at h2
            by_cases hxd : x = d
            · subst hxd; simpa using h2
            · simpa [hxd] using h2
          · refine Or.inr (Or.inr (Or.inr (Or.inr (Or.inr (Or.inl ⟨h1, c, by simpa [Sys.emit, Sys.setDev] using h2,
              hk, src, by simpa [Sys.emit, Sys.setDev] using h3, ?_⟩)))))
            simp only [Sys.emit, Sys.setDev] at h4
            by_cases hxd : src = d
            · subst hxd; simpa using h4
            · simpa [hxd] using h4
          · exact Or.inr (Or.inr (Or.inr (Or.inr (Or.inr (Or.inr h5)))))

theorem send_fail {E : Env} {s : Sys} {d : DevId} {p : Bytes} {dest : Addr} {proto : UInt16} {e : Fault}
    (h : send E s d p dest proto = .fail e) :
    (s.dev d).linkUp = true ∧
    ((e = .notAMac ∧ dest = .other) ∨ (e = .nullQueue ∧ (s.dev d).hasQueue = false) ∨
     (e = .nullChannel ∧ (s.dev d).chan = none) ∨
     (e = .nullNode ∧ ∃ x, (s.dev x).node = none) ∨
     (e = .bothSides ∧ ∃ c, (s.dev d).chan = some c ∧ Ambiguous s c (s.dev d).chanSlot)) := by
  unfold send at h
  simp only at h
  split at h
  · cases h
  · rename_i hl
    refine ⟨by simpa using hl, ?_⟩
    split at h
    · injection h with h; exact Or.inl ⟨h.symm, rfl⟩
    · split at h
      · rename_i hq
        injection h with h; exact Or.inr (Or.inl ⟨h.symm, by simpa using hq⟩)
      · split at h
        · split at h
          · rename_i hb
            split at h
            · rename_i hnil; simp at hnil
            · rw [Outcome.bind_eq_fail] at h
              rcases h with h | ⟨_, _, h⟩
              · rcases transmitStart_fail h with ⟨_, h2⟩ | ⟨h1, h2⟩ | ⟨h1, x, h2⟩ | ⟨h1, c, h2, hk, src, h3, h4⟩ | ⟨_, h5⟩
                · simp [Sys.emit, Sys.setDev] at h2 hb; simp [hb] at h2
                · exact Or.inr (Or.inr (Or.inl ⟨h1, by simpa [Sys.emit, Sys.setDev] using h2⟩))
                · refine Or.inr (Or.inr (Or.inr (Or.inl ⟨h1, x, ?_⟩)))
                  simp only [Sys.emit, Sys.setDev] at h2
                  by_cases hxd : x = d
                  · subst hxd; simpa using h2
                  · simpa [hxd] using h2
                · refine Or.inr (Or.inr (Or.inr (Or.inr ⟨h1, c, by simpa [Sys.emit, Sys.setDev] using h2,
                    hk, src, by simpa [Sys.emit, Sys.setDev] using h3, ?_⟩)))
                  simp only [Sys.emit, Sys.setDev] at h4
                  by_cases hxd : src = d
                  · subst hxd; simpa using h4
                  · simpa [hxd] using h4
                · cases h5
              · cases h
          · cases h
        · cases h

theorem decode_fail {k : Fcs} {f : Bytes} {e : Fault} (h : decode k f = .fail e) :
    e = .packetTooShort ∨ e = .frameShorterThanLength ∨ e = .padTooLong := by
  have h1 : ∀ f e, removeTrailer f = .fail e → e = .packetTooShort := by
    intro f e h; unfold removeTrailer at h; split at h <;> cases h; rfl
  have h2 : ∀ f e, removeEthHeader f = .fail e → e = .packetTooShort := by
    intro f e h; unfold removeEthHeader at h; split at h <;> cases h; rfl
  have h3 : ∀ f e, removeLlcHeader f = .fail e → e = .packetTooShort := by
    intro f e h; unfold removeLlcHeader at h; split at h <;> cases h; rfl
  unfold decode at h
  rw [Outcome.bind_eq_fail] at h
  rcases h with h | ⟨⟨p, fcs⟩, _, h⟩
  · exact Or.inl (h1 _ _ h)
  · simp only at h
    split at h
    · cases h
    · rw [Outcome.bind_eq_fail] at h
      rcases h with h | ⟨⟨q, dst, src, l⟩, _, h⟩
      · exact Or.inl (h2 _ _ h)
      · simp only at h
        split at h
        · split at h
          · injection h with h; exact Or.inr (Or.inl h.symm)
          · split at h
            · injection h with h; exact Or.inr (Or.inr h.symm)
            · rw [Outcome.bind_eq_fail] at h
              rcases h with h | ⟨_, _, h⟩
              · exact Or.inl (h3 _ _ h)
              · cases h
        · cases h

theorem receive_fail {E : Env} {s : Sys} {d : DevId} {f : Bytes} {src : DevId} {rx : Power} {e : Fault}
    (h : receive E s d f src rx = .fail e) :
    decode E.fcs f = .fail e ∨ (e = .nullCallback ∧ (s.dev d).rxCb = false) := by
  unfold receive at h
  simp only at h
  split at h
  · cases h
  · split at h
    · cases h
    · split at h
      · cases h
      · rw [Outcome.bind_eq_fail] at h
        rcases h with h | ⟨r, _, h⟩
        · exact Or.inl h
        · split at h
          · cases h
          · split at h
            · cases h
            · split at h
              · cases h
              · rename_i hcb
                injection h with h
                exact Or.inr ⟨h.symm, by simpa [Sys.emit] using hcb⟩

/-- The faults of one operation in a state satisfying the device invariant. -/
theorem step_fail {E : Env} {s : Sys} {op : Op} {e : Fault} (hinv : ∀ x, DevInv s x)
    (h : step E s op = .fail e) :
    e = .notAMac ∨ e = .nullQueue ∨ e = .nullNode ∨ e = .bothSides ∨ e = .badCast ∨ e = .indexOutOfRange ∨
    e = .packetTooShort ∨ e = .frameShorterThanLength ∨ e = .padTooLong ∨ e = .nullCallback := by
  cases op with
  | send d p dest proto =>
    obtain ⟨hl, h⟩ := send_fail h
    rcases h with h | h | h | h | h
    · simp [h.1]
    · simp [h.1]
    · have := (hinv d).chan (Or.inl hl); simp [h.2] at this
    · simp [h.1]
    · simp [h.1]
  | attach d c =>
    simp only [step, attach] at h
    split at h
    · cases h
    · split at h
      · injection h with h; simp [← h]
      · split at h <;> cases h
  | detach c slot =>
    simp only [step, detach] at h
    split at h
    · cases h
    · split at h
      · injection h with h; simp [← h]
      · cases h
  | setAddress d a =>
    cases a with
    | other => injection h with h; simp [← h]
    | mac m => cases h
  | run =>
    simp only [step, run] at h
    split at h
    · cases h
    · rename_i p ps hp
      obtain ⟨t, a⟩ := p
      cases a with
      | receive d f src rx =>
        rcases receive_fail h with h | h
        · rcases decode_fail h with h | h | h <;> simp [h]
        · simp [h.1]
      | txComplete d dest =>
        have hbusy : (s.dev d).busy = true := by
          by_contra hb
          have hb' : (s.dev d).busy = false := by simpa using hb
          have := ((hinv d).ready hb').2.2
          rw [hp, txc_cons] at this
          simp at this
        rcases transmitComplete_fail h with h | h | h | h | h | h | h
        · simp [hbusy] at h
        · obtain ⟨f, _, _, h1, _⟩ := (hinv d).busy hbusy
          simp [h1] at h
        · simp [h.1]
        · have := (hinv d).chan (Or.inr hbusy)
          simp only at h
          simp [h.2] at this
        · simp [h.1]
        · simp [h.1]
        · simp [h.1]
  | wait dt =>
    simp only [step] at h
    split at h <;> cases h
  | _ => cases h

end Verif
