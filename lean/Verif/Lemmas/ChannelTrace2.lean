import Verif.Lemmas.ChannelTrace
import Verif.Lemmas.Reconfigure
/-! A call of `Send` during which only code connected to the trace source of the channel makes calls. -/

namespace Verif
open Spec

/-- No code is connected to the trace sources and callbacks of the devices. -/
def ChanOnly (k : Sinks) : Prop := ∀ h, Hook.inDelivery h = false → ∀ t, k h t = .ok t

theorem chanOnly_plain : ChanOnly (fun _ t => .ok t) := fun _ _ _ => rfl

/-- The state in which `TransmitStart` calls the channel. -/
def air (E : Env) (s : Sys) (d : DevId) (f : Bytes) (dest : Addr) : Sys :=
  (((s.setDev d { s.dev d with busy := true, cur := some f }).emit (.phyTxBegin d f)).schedule
    (E.txTime (s.dev d).rate f.length + (s.dev d).gap) (.txComplete d dest)).emit (.onAir d f dest)

/-- What `TransmitStart` does with the result of the channel. -/
def landed (d : DevId) (f : Bytes) (r : Sys × Bool) : Sys := if r.2 then r.1 else r.1.emit (.phyTxDrop d f)

theorem transmitStartK_only {E : Env} {k : Sinks} (hk : ChanOnly k) {s : Sys} {d : DevId} {f : Bytes} {dest : Addr} :
    transmitStartK E k s d f dest =
      if (s.dev d).busy then .fail .txNotReady
      else match (s.dev d).chan with
        | none => .fail .nullChannel
        | some c => chanTransmitK E k (air E s d f dest) c f (s.dev d).chanSlot dest (E.txTime (s.dev d).rate f.length) >>=
            fun r => .ok (landed d f r) := by
  unfold transmitStartK
  rw [hk .phyTxBegin rfl]
  have h1 : ∀ (v : Dev) (e : Ev), ((s.setDev d v).emit e).dev d = v := fun v e => by simp [Sys.emit, Sys.setDev]
  simp only [Outcome.ok_bind, h1]
  split
  · rfl
  · cases hch : (s.dev d).chan with
    | none => rfl
    | some c =>
      simp only [air, hch]
      cases chanTransmitK E k _ c f (s.dev d).chanSlot dest (E.txTime (s.dev d).rate f.length) with
      | fail e => rfl
      | ok r =>
        obtain ⟨s3, ok⟩ := r
        cases ok
        · exact hk .phyTxDrop rfl _
        · rfl

/-- The state in which `Send` starts a transmission. -/
def opened (s : Sys) (d : DevId) (f g : Bytes) (rest : List Bytes) : Sys :=
  (((s.emit (.macTx d f)).setDev d { s.dev d with queue := rest }).emit (.promiscSniffer d g)).emit (.sniffer d g)

theorem sendK_only {E : Env} {k : Sinks} (hk : ChanOnly k) {s : Sys} {d : DevId} {p : Bytes} {m : Mac48} {proto : UInt16}
    {f g : Bytes} {rest : List Bytes} (hf : f = addHeader E.fcs p (s.dev d).addr m proto)
    (hl : (s.dev d).linkUp = true) (hq : (s.dev d).hasQueue = true) (hc : (s.dev d).queue.length < (s.dev d).cap)
    (hb : (s.dev d).busy = false) (hg : (s.dev d).queue ++ [f] = g :: rest) :
    sendK E k s d p (.mac m) proto = (transmitStartK E k (opened s d f g rest) d g (.mac m) >>= fun s3 =>
      .ok (s3.emit (.sendRet d p (.mac m) proto true f))) := by
  rw [sendK_up hl, hk .macTx rfl, Outcome.ok_bind, ← hf]
  unfold sendRest
  have h1 : (s.emit (.macTx d f)).dev = s.dev := rfl
  have h2 : ∀ (t : Sys) (v w : Dev), (t.setDev d v).setDev d w = t.setDev d w := by
    intro t v w
    simp only [Sys.setDev, Sys.mk.injEq, and_true]
    funext x
    split <;> rfl
  have h3 : ∀ (t : Sys) (v : Dev), (t.setDev d v).dev d = v := fun t v => by simp [Sys.setDev]
  rw [h1, hq, if_neg (by simp), if_pos hc, hk .enqueue rfl, Outcome.ok_bind]
  unfold sendStartK
  simp only [h3, hb, hg, Bool.not_false, if_true, h2, hk .dequeue rfl, hk .promiscSniffer rfl, hk .sniffer rfl,
    Outcome.ok_bind, opened]

/-- Nothing that the channel looks at differs. -/
structure SameNet (s t : Sys) : Prop where
  now : t.now = s.now
  chan : t.chan = s.chan
  addr : ∀ x, (t.dev x).addr = (s.dev x).addr
  node : ∀ x, (t.dev x).node = (s.dev x).node
  txPower : ∀ x, (t.dev x).txPower = (s.dev x).txPower
  leo : ∀ x, (t.dev x).leo = (s.dev x).leo
  side : ∀ x, (t.dev x).side = (s.dev x).side
  pending : ∀ q ∈ s.pending, q ∈ t.pending

theorem sameNet_air (E : Env) (s : Sys) (d : DevId) (f g : Bytes) (rest : List Bytes) (dest : Addr) :
    SameNet s (air E (opened s d f g rest) d g dest) := by
  have key : ∀ x, ∃ q b c, (air E (opened s d f g rest) d g dest).dev x = { s.dev x with queue := q, busy := b, cur := c } := by
    intro x
    by_cases hx : x = d
    · subst hx; exact ⟨_, _, _, by simp [air, opened, Sys.emit, Sys.schedule, Sys.setDev]; exact ⟨rfl, rfl, rfl⟩⟩
    · exact ⟨(s.dev x).queue, (s.dev x).busy, (s.dev x).cur, by simp [air, opened, Sys.emit, Sys.schedule, Sys.setDev, hx]⟩
  refine ⟨rfl, rfl, ?_, ?_, ?_, ?_, ?_, ?_⟩
  · intro x; obtain ⟨_, _, _, h⟩ := key x; rw [h]
  · intro x; obtain ⟨_, _, _, h⟩ := key x; rw [h]
  · intro x; obtain ⟨_, _, _, h⟩ := key x; rw [h]
  · intro x; obtain ⟨_, _, _, h⟩ := key x; rw [h]
  · intro x; obtain ⟨_, _, _, h⟩ := key x; rw [h]
  · intro q hq
    exact mem_insertPending.mpr (Or.inr hq)

/-- A successful `Send` either does not reach the channel, whatever is connected to the channel, or is a call of the
channel in some state. -/
theorem send_via_chan {E : Env} {s s1 : Sys} {d : DevId} {p : Bytes} {dest : Addr} {proto : UInt16}
    (h : send E s d p dest proto = .ok s1) :
    (receivers (newLog s s1) = [] ∧ ∀ k, ChanOnly k → sendK E k s d p dest proto = .ok s1) ∨
    ∃ t c f g tx l r, SameNet s t ∧ (s.dev d).chan = some c ∧ t.log = s.log ++ l ∧ receivers l = [] ∧
      chanTransmit E t c g (s.dev d).chanSlot dest tx = .ok r ∧
      s1 = (landed d g r).emit (.sendRet d p dest proto true f) ∧
      ∀ k, ChanOnly k → sendK E k s d p dest proto =
        (chanTransmitK E k t c g (s.dev d).chanSlot dest tx >>= fun r => .ok ((landed d g r).emit (.sendRet d p dest proto true f))) := by
  have quiet : ∀ l, receivers l = [] → ({ s with log := s.log ++ l } : Sys).log.drop s.log.length = l := by
    intro l _; simp
  rcases send_ok h with ⟨hl, rfl⟩ | ⟨hl, hq, m, rfl, f, hf, hcase⟩
  · refine Or.inl ⟨by simp [newLog, receivers, proj], ?_⟩
    intro k hk
    unfold sendK
    rw [if_pos (by simp [hl]), hk .macTxDrop rfl, Outcome.ok_bind]
    simp [Sys.emit]
  · rcases hcase with ⟨hc, rfl⟩ | ⟨hc, hb, rfl⟩ | ⟨hc, hb, g, rest, s3, hg, hst, rfl⟩
    · refine Or.inl ⟨by simp [newLog, receivers, proj], ?_⟩
      intro k hk
      rw [sendK_up hl, hk .macTx rfl, Outcome.ok_bind, ← hf]
      unfold sendRest
      have h1 : (s.emit (.macTx d f)).dev = s.dev := rfl
      rw [h1, hq, if_neg (by simp), if_neg hc, hk .queueDrop rfl, Outcome.ok_bind, hk .macTxDrop rfl, Outcome.ok_bind]
      simp [Sys.emit]
    · refine Or.inl ⟨by simp [newLog, receivers, proj], ?_⟩
      intro k hk
      rw [sendK_up hl, hk .macTx rfl, Outcome.ok_bind, ← hf]
      unfold sendRest
      have h1 : (s.emit (.macTx d f)).dev = s.dev := rfl
      rw [h1, hq, if_neg (by simp), if_pos hc, hk .enqueue rfl, Outcome.ok_bind]
      unfold sendStartK
      have h3 : ∀ (t : Sys) (v : Dev), (t.setDev d v).dev d = v := fun t v => by simp [Sys.setDev]
      simp only [h3, hb, Bool.not_true, Bool.false_eq_true, if_false, Outcome.ok_bind]
      simp [Sys.emit, Sys.setDev]
    · refine Or.inr ?_
      have hop : ({ s with dev := (fun x => if x = d then { s.dev d with queue := rest } else s.dev x),
                           log := s.log ++ [(s.now, .macTx d f), (s.now, .promiscSniffer d g), (s.now, .sniffer d g)] } : Sys) =
          opened s d f g rest := by simp [opened, Sys.emit, Sys.setDev]
      rw [hop] at hst
      have hd : (opened s d f g rest).dev d = { s.dev d with queue := rest } := by simp [opened, Sys.emit, Sys.setDev]
      rw [← transmitStartK_plain, transmitStartK_only chanOnly_plain, hd] at hst
      simp only [hb, Bool.false_eq_true, if_false] at hst
      cases hch : (s.dev d).chan with
      | none => rw [hch] at hst; cases hst
      | some c =>
        simp only [hch] at hst
        rw [Outcome.bind_eq_ok] at hst
        obtain ⟨r, hr, hs3⟩ := hst
        rw [chanTransmitK_plain E quietChan_plain] at hr
        injection hs3 with hs3
        refine ⟨air E (opened s d f g rest) d g (.mac m), c, f, g, _,
          [(s.now, .macTx d f), (s.now, .promiscSniffer d g), (s.now, .sniffer d g), (s.now, .phyTxBegin d g), (s.now, .onAir d g (.mac m))],
          r, sameNet_air _ _ _ _ _ _ _, rfl, ?_, rfl, hr, ?_, ?_⟩
        · simp [air, opened, Sys.emit, Sys.schedule, Sys.setDev]
        · rw [hs3]; rfl
        · intro k hk
          rw [sendK_only hk hf hl hq hc hb hg, transmitStartK_only hk, hd]
          simp only [hb, Bool.false_eq_true, if_false, hch]
          cases chanTransmitK E k (air E (opened s d f g rest) d g (.mac m)) c g (s.dev d).chanSlot (.mac m)
            (E.txTime (s.dev d).rate g.length) with
          | fail e => rfl
          | ok r' => rfl

end Verif
