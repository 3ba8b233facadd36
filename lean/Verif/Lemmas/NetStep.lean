import Verif.Lemmas.Net
/-! Inversion lemmas: the exact effect of each operation that succeeds. -/

namespace Verif
open Spec

/-! ## Projections -/

@[simp] theorem proj_nil {α : Type} (g : Ev → Option α) : proj g [] = [] := rfl
@[simp] theorem proj_append {α : Type} (g : Ev → Option α) (l m : List (Time × Ev)) :
    proj g (l ++ m) = proj g l ++ proj g m := by simp [proj]
@[simp] theorem proj_cons {α : Type} (g : Ev → Option α) (e : Time × Ev) (l : List (Time × Ev)) :
    proj g (e :: l) = (g e.2).toList ++ proj g l := by
  simp only [proj, List.filterMap_cons]; cases g e.2 <;> simp
@[simp] theorem projT_nil {α : Type} (g : Ev → Option α) : projT g [] = [] := rfl
@[simp] theorem projT_append {α : Type} (g : Ev → Option α) (l m : List (Time × Ev)) :
    projT g (l ++ m) = projT g l ++ projT g m := by simp [projT]
@[simp] theorem projT_cons {α : Type} (g : Ev → Option α) (e : Time × Ev) (l : List (Time × Ev)) :
    projT g (e :: l) = ((g e.2).map (fun a => (e.1, a))).toList ++ projT g l := by
  simp only [projT, List.filterMap_cons]; cases g e.2 <;> simp

theorem proj_entries {α : Type} {g : Ev → Option α}
    (hg : ∀ c f s d t dl, g (.txrx c f s d t dl) = none) (now : Time) (c : ChanId) (f : Bytes) (src : DevId)
    (t : Time) (rs : List Recv) : proj g (rs.map (Recv.entry now c f src t)) = [] := by
  induction rs with
  | nil => rfl
  | cons r rs ih => simp [ih, Recv.entry, hg]

theorem projT_entries {α : Type} {g : Ev → Option α}
    (hg : ∀ c f s d t dl, g (.txrx c f s d t dl) = none) (now : Time) (c : ChanId) (f : Bytes) (src : DevId)
    (t : Time) (rs : List Recv) : projT g (rs.map (Recv.entry now c f src t)) = [] := by
  induction rs with
  | nil => rfl
  | cons r rs ih => simp [ih, Recv.entry, hg]

/-! ## Effects -/

/-- Result of a successful `transmitStart`. -/
def txState (E : Env) (s : Sys) (d : DevId) (f : Bytes) (dest : Addr) (c : ChanId) (src : DevId)
    (rs : List Recv) (b : Bool) : Sys :=
  { dev := fun x => if x = d then { s.dev d with busy := true, cur := some f } else s.dev x
    chan := s.chan
    now := s.now
    pending := insertAll (rs.map (Recv.pend s.now f src))
      (insertPending ⟨s.now + (E.txTime (s.dev d).rate f.length + (s.dev d).gap), .txComplete d dest⟩ s.pending)
    log := s.log ++ ([(s.now, .phyTxBegin d f), (s.now, .onAir d f dest)]
      ++ (rs.map (Recv.entry s.now c f src (E.txTime (s.dev d).rate f.length))
      ++ if b then [] else [(s.now, .phyTxDrop d f)])) }

theorem transmitStart_aud {E : Env} {s s' : Sys} {d : DevId} {f : Bytes} {dest : Addr}
    (h : transmitStart E s d f dest = .ok s') :
    (s.dev d).busy = false ∧ ∃ c src rs b, (s.dev d).chan = some c ∧
      (rs = [] ∨ (s.chan c).link[(s.dev d).chanSlot]? = some src) ∧
      (∀ r ∈ rs, recvOf E s c src (E.txTime (s.dev d).rate f.length) r.dst = some r) ∧
      s' = txState E s d f dest c src rs b ∧
      rs = (audience s c (s.dev d).chanSlot dest).filterMap
        (recvOf E s c src (E.txTime (s.dev d).rate f.length)) ∧
      (b = true ↔ rs ≠ [] ∨ Floods s c (s.dev d).chanSlot dest) ∧
      (∀ x, (s.chan c).link[(s.dev d).chanSlot]? = some x → src = x) := by
  unfold transmitStart at h
  simp only at h
  split at h
  · cases h
  · rename_i hb
    split at h
    · cases h
    · rename_i c hc
      rw [Outcome.bind_eq_ok] at h
      obtain ⟨⟨s3, ok⟩, h1, h2⟩ := h
      obtain ⟨src, rs, rfl, hsrc, hrs, haud, hret⟩ := chanTransmit_ok h1
      have hrec : ∀ x, recvOf E ((((s.setDev d { s.dev d with busy := true, cur := some f }).emit (.phyTxBegin d f)).schedule
          (E.txTime (s.dev d).rate f.length + (s.dev d).gap) (.txComplete d dest)).emit (.onAir d f dest)) c src
          (E.txTime (s.dev d).rate f.length) x = recvOf E s c src (E.txTime (s.dev d).rate f.length) x := by
        intro x
        unfold recvOf
        simp only [Sys.emit, Sys.schedule, Sys.setDev]
        by_cases h1 : src = d <;> by_cases h2 : x = d <;> simp [h1, h2]
      have haddr : ∀ x, (((((s.setDev d { s.dev d with busy := true, cur := some f }).emit (.phyTxBegin d f)).schedule
          (E.txTime (s.dev d).rate f.length + (s.dev d).gap) (.txComplete d dest)).emit (.onAir d f dest)).dev x).addr
          = (s.dev x).addr := by
        intro x
        simp only [Sys.emit, Sys.schedule, Sys.setDev]
        by_cases h1 : x = d <;> simp [h1]
      have hfl : Floods ((((s.setDev d { s.dev d with busy := true, cur := some f }).emit (.phyTxBegin d f)).schedule
          (E.txTime (s.dev d).rate f.length + (s.dev d).gap) (.txComplete d dest)).emit (.onAir d f dest)) c
          (s.dev d).chanSlot dest ↔ Floods s c (s.dev d).chanSlot dest := by
        unfold Floods
        simp only [haddr]
        rfl
      rw [hfl] at hret
      refine ⟨by simpa using hb, c, src, rs, ok, hc, hsrc, ?_, ?_, ?_, hret⟩
      · intro r hr
        have := hrs r hr
        rw [← this, hrec]
      · simp only at h2
        cases ok <;>
          simp [Sys.emit, Sys.schedule, Sys.setDev, addRecvs, txState] at h2 ⊢ <;>
          exact h2.symm
      · rw [haud]
        have e1 : audience ((((s.setDev d { s.dev d with busy := true, cur := some f }).emit (.phyTxBegin d f)).schedule
          (E.txTime (s.dev d).rate f.length + (s.dev d).gap) (.txComplete d dest)).emit (.onAir d f dest)) c
          (s.dev d).chanSlot dest = audience s c (s.dev d).chanSlot dest := by
          unfold audience
          simp only [haddr]
          rfl
        rw [e1]
        congr 1
        funext x
        exact hrec x

theorem transmitStart_ok {E : Env} {s s' : Sys} {d : DevId} {f : Bytes} {dest : Addr}
    (h : transmitStart E s d f dest = .ok s') :
    (s.dev d).busy = false ∧ ∃ c src rs b, (s.dev d).chan = some c ∧
      (rs = [] ∨ (s.chan c).link[(s.dev d).chanSlot]? = some src) ∧
      (∀ r ∈ rs, recvOf E s c src (E.txTime (s.dev d).rate f.length) r.dst = some r) ∧
      s' = txState E s d f dest c src rs b := by
  obtain ⟨hb, c, src, rs, b, h1, h2, h3, h4, _⟩ := transmitStart_aud h
  exact ⟨hb, c, src, rs, b, h1, h2, h3, h4⟩

/-- Successful `transmitComplete`: either nothing was queued, or the next frame was started. -/
theorem transmitComplete_ok {E : Env} {s s' : Sys} {d : DevId} {dest : Addr}
    (h : transmitComplete E s d dest = .ok s') :
    (s.dev d).busy = true ∧ (s.dev d).hasQueue = true ∧ ∃ f, (s.dev d).cur = some f ∧
      (((s.dev d).queue = [] ∧
        s' = { s with dev := (fun x => if x = d then { s.dev d with busy := false, cur := none } else s.dev x),
                      log := s.log ++ [(s.now, .phyTxEnd d f)] }) ∨
       ∃ p rest, (s.dev d).queue = p :: rest ∧
        transmitStart E
          { s with dev := (fun x => if x = d then { s.dev d with busy := false, cur := none, queue := rest } else s.dev x),
                   log := s.log ++ [(s.now, .phyTxEnd d f), (s.now, .sniffer d p), (s.now, .promiscSniffer d p)] }
          d p dest = .ok s') := by
  unfold transmitComplete at h
  simp only at h
  split at h
  · cases h
  · rename_i hb
    split at h
    · cases h
    · rename_i f hf
      split at h
      · cases h
      · rename_i hq
        refine ⟨by simpa using hb, by simpa using hq, f, hf, ?_⟩
        split at h
        · rename_i hqe
          injection h with h
          left
          exact ⟨hqe, by simp [← h, Sys.emit, Sys.setDev]⟩
        · rename_i p rest hqe
          right
          refine ⟨p, rest, hqe, ?_⟩
          rw [← h]
          congr 1
          simp only [Sys.emit, Sys.setDev, List.append_assoc, List.cons_append, List.nil_append]
          congr 1
          funext x
          by_cases hx : x = d <;> simp [hx]

/-- Successful `send`: link down, queue full, queued behind a transmission, or started at once. -/
theorem send_ok {E : Env} {s s' : Sys} {d : DevId} {p : Bytes} {dest : Addr} {proto : UInt16}
    (h : send E s d p dest proto = .ok s') :
    ((s.dev d).linkUp = false ∧
      s' = { s with log := s.log ++ [(s.now, .macTxDrop d p), (s.now, .sendRet d p dest proto false p)] }) ∨
    ((s.dev d).linkUp = true ∧ (s.dev d).hasQueue = true ∧ ∃ m, dest = .mac m ∧
      ∃ f, f = addHeader E.fcs p (s.dev d).addr m proto ∧
      ((¬ (s.dev d).queue.length < (s.dev d).cap ∧
          s' = { s with log := s.log ++ [(s.now, .macTx d f), (s.now, .macTxDrop d f),
                                          (s.now, .sendRet d p dest proto false f)] }) ∨
       ((s.dev d).queue.length < (s.dev d).cap ∧ (s.dev d).busy = true ∧
          s' = { s with dev := (fun x => if x = d then { s.dev d with queue := (s.dev d).queue ++ [f] } else s.dev x),
                        log := s.log ++ [(s.now, .macTx d f), (s.now, .sendRet d p dest proto true f)] }) ∨
       ((s.dev d).queue.length < (s.dev d).cap ∧ (s.dev d).busy = false ∧ ∃ g rest s3,
          (s.dev d).queue ++ [f] = g :: rest ∧
          transmitStart E
            { s with dev := (fun x => if x = d then { s.dev d with queue := rest } else s.dev x),
                     log := s.log ++ [(s.now, .macTx d f), (s.now, .promiscSniffer d g), (s.now, .sniffer d g)] }
            d g dest = .ok s3 ∧
          s' = { s3 with log := s3.log ++ [(s3.now, .sendRet d p dest proto true f)] }))) := by
  unfold send at h
  simp only at h
  split at h
  · rename_i hl
    left
    injection h with h
    exact ⟨by simpa using hl, by simp [← h, Sys.emit]⟩
  · rename_i hl
    right
    refine ⟨by simpa using hl, ?_⟩
    split at h
    · cases h
    · rename_i m
      split at h
      · cases h
      · rename_i hq
        refine ⟨by simpa using hq, m, rfl, _, rfl, ?_⟩
        split at h
        · rename_i hlen
          right
          split at h
          · rename_i hb
            right
            split at h
            · cases h
            · rename_i g rest hg
              rw [Outcome.bind_eq_ok] at h
              obtain ⟨s3, h1, h2⟩ := h
              injection h2 with h2
              refine ⟨hlen, by simpa using hb, g, rest, s3, hg, ?_, ?_⟩
              · rw [← h1]
                congr 1
                simp [Sys.emit, Sys.setDev]
              · rw [← h2]; rfl
          · rename_i hb
            left
            injection h with h
            exact ⟨hlen, by simpa using hb, by simp [← h, Sys.emit, Sys.setDev]⟩
        · rename_i hlen
          left
          injection h with h
          exact ⟨hlen, by simp [← h, Sys.emit]⟩

/-- The log entries a reception can produce after the `recvCall` entry. -/
def RxEv (d : DevId) : Ev → Prop
  | .macRxDrop d' _ | .phyRxEnd d' _ | .phyRxDrop d' _ | .promiscSniffer d' _ | .macPromiscRx d' _
  | .macRx d' _ | .rxCallback d' _ _ _ | .promiscCallback d' _ _ _ _ _ => d' = d
  | _ => False

/-- Successful `receive` only appends to the log. -/
theorem receive_ok {E : Env} {s s' : Sys} {d : DevId} {f : Bytes} {src : DevId} {rx : Power}
    (h : receive E s d f src rx = .ok s') :
    ∃ l : List Ev, (∀ e ∈ l, RxEv d e) ∧
      s' = { s with log := s.log ++ ((s.now, .recvCall d f src rx) :: l.map (fun e => (s.now, e))) } := by
  unfold receive at h
  simp only at h
  split at h
  · injection h with h
    exact ⟨[.macRxDrop d f], by simp [RxEv], by simp [← h, Sys.emit]⟩
  · split at h
    · injection h with h
      exact ⟨[.phyRxEnd d f, .phyRxDrop d f], by simp [RxEv], by simp [← h, Sys.emit]⟩
    · split at h
      · injection h with h
        exact ⟨[.phyRxEnd d f, .phyRxDrop d f], by simp [RxEv], by simp [← h, Sys.emit]⟩
      · rw [Outcome.bind_eq_ok] at h
        obtain ⟨r, hdec, h⟩ := h
        split at h
        · rename_i rest
          injection h with h
          exact ⟨[.phyRxEnd d f, .phyRxDrop d rest], by simp [RxEv], by simp [← h, Sys.emit]⟩
        · rename_i p proto srcA dstA
          generalize packetType dstA ((s.emit (.recvCall d f src rx)).dev d).addr = ty at h
          generalize ((s.emit (.recvCall d f src rx)).dev d).promiscCb = pc at h
          split at h
          · injection h with h
            cases pc
            · exact ⟨[.phyRxEnd d f, .promiscSniffer d f], by simp [RxEv], by simp [← h, Sys.emit]⟩
            · exact ⟨[.phyRxEnd d f, .promiscSniffer d f, .macPromiscRx d f, .promiscCallback d p proto srcA dstA ty],
                by simp [RxEv], by simp [← h, Sys.emit]⟩
          · split at h
            · injection h with h
              cases pc
              · exact ⟨[.phyRxEnd d f, .promiscSniffer d f, .macRx d f, .rxCallback d p proto srcA],
                  by simp [RxEv], by simp [← h, Sys.emit]⟩
              · exact ⟨[.phyRxEnd d f, .promiscSniffer d f, .macPromiscRx d f,
                  .promiscCallback d p proto srcA dstA ty, .macRx d f, .rxCallback d p proto srcA],
                  by simp [RxEv], by simp [← h, Sys.emit]⟩
            · cases h

theorem proj_rxEvs {α : Type} {g : Ev → Option α} {d : DevId} (hg : ∀ e, RxEv d e → g e = none) (now : Time)
    {l : List Ev} (hl : ∀ e ∈ l, RxEv d e) : proj g (l.map (fun e => (now, e))) = [] := by
  induction l with
  | nil => rfl
  | cons e l ih =>
    simp only [List.map_cons, proj_cons, hg e (hl e (by simp)), Option.toList_none, List.nil_append]
    exact ih (fun e he => hl e (by simp [he]))

theorem projT_rxEvs {α : Type} {g : Ev → Option α} {d : DevId} (hg : ∀ e, RxEv d e → g e = none) (now : Time)
    {l : List Ev} (hl : ∀ e ∈ l, RxEv d e) : projT g (l.map (fun e => (now, e))) = [] := by
  induction l with
  | nil => rfl
  | cons e l ih =>
    simp only [List.map_cons, projT_cons, hg e (hl e (by simp)), Option.map_none, Option.toList_none, List.nil_append]
    exact ih (fun e he => hl e (by simp [he]))

/-- Successful `attach`. -/
theorem attach_ok {s s' : Sys} {d : DevId} {c : ChanId} (h : attach s d c = .ok s') :
    ∃ g t, (((s.chan c).kind = .isl ∧ g = (s.chan c).gnd ∧ t = (s.chan c).sat) ∨
        ((s.chan c).kind = .leo ∧ (s.dev d).leo = true ∧
          (((s.dev d).side = .gnd ∧ g = mapInsert (s.dev d).addr d (s.chan c).gnd ∧ t = (s.chan c).sat) ∨
           ((s.dev d).side = .sat ∧ g = (s.chan c).gnd ∧ t = mapInsert (s.dev d).addr d (s.chan c).sat)))) ∧
      s' = { s with
        dev := fun x => if x = d then { s.dev d with chan := some c, chanSlot := (s.chan c).link.length, linkUp := true } else s.dev x
        chan := fun x => if x = c then { s.chan c with link := (s.chan c).link ++ [d], gnd := g, sat := t } else s.chan x
        log := s.log ++ [(s.now, .linkChange d), (s.now, .attachRet d c (s.chan c).link.length)] } := by
  unfold attach at h
  simp only at h
  split at h
  · rename_i hk
    injection h with h
    exact ⟨_, _, Or.inl ⟨hk, rfl, rfl⟩, by simp [← h, Sys.emit, Sys.setDev, Sys.setChan]⟩
  · rename_i hk
    split at h
    · cases h
    · rename_i hl
      have hl' : (s.dev d).leo = true := by simpa using hl
      split at h
      · rename_i hsd
        injection h with h
        exact ⟨_, _, Or.inr ⟨hk, hl', Or.inl ⟨hsd, rfl, rfl⟩⟩, by simp [← h, Sys.emit, Sys.setDev, Sys.setChan]⟩
      · rename_i hsd
        injection h with h
        exact ⟨_, _, Or.inr ⟨hk, hl', Or.inr ⟨hsd, rfl, rfl⟩⟩, by simp [← h, Sys.emit, Sys.setDev, Sys.setChan]⟩

theorem baseDetach_cases (s : Sys) (c : ChanId) (slot : Nat) :
    (∃ d, (s.chan c).link[slot]? = some d ∧ (s.dev d).linkUp = true ∧
      baseDetach s c slot = ((s.setDev d { s.dev d with linkUp := false }).emit (.linkChange d), true)) ∨
    ((∀ d, (s.chan c).link[slot]? = some d → (s.dev d).linkUp = false) ∧ baseDetach s c slot = (s, false)) := by
  unfold baseDetach
  cases h : (s.chan c).link[slot]? with
  | none => right; simp
  | some d =>
    cases hl : (s.dev d).linkUp with
    | true => left; exact ⟨d, rfl, hl, by simp [hl]⟩
    | false => right; simp [hl]

/-- Successful `detach`: the channel index may shrink, at most the link of one device goes down. -/
theorem detach_ok {s s' : Sys} {c : ChanId} {slot : Nat} (h : detach s c slot = .ok s') :
    ∃ g t, (((s.chan c).kind = .isl ∧ g = (s.chan c).gnd ∧ t = (s.chan c).sat) ∨
        ((s.chan c).kind = .leo ∧ ∃ d, (s.chan c).link[slot]? = some d ∧
          g = mapErase (s.dev d).addr (s.chan c).gnd ∧ t = mapErase (s.dev d).addr (s.chan c).sat)) ∧
      ((∃ d, (s.chan c).link[slot]? = some d ∧ (s.dev d).linkUp = true ∧
        s' = { s with
          dev := fun x => if x = d then { s.dev d with linkUp := false } else s.dev x
          chan := fun x => if x = c then { s.chan c with gnd := g, sat := t } else s.chan x
          log := s.log ++ [(s.now, .linkChange d), (s.now, .detachRet c slot true)] }) ∨
       ((∀ d, (s.chan c).link[slot]? = some d → (s.dev d).linkUp = false) ∧
        s' = { s with
          chan := fun x => if x = c then { s.chan c with gnd := g, sat := t } else s.chan x
          log := s.log ++ [(s.now, .detachRet c slot false)] })) := by
  have hself : (fun x => if x = c then { s.chan c with gnd := (s.chan c).gnd, sat := (s.chan c).sat } else s.chan x)
      = s.chan := by
    funext x; by_cases hx : x = c <;> simp [hx]
  unfold detach at h
  split at h
  · rename_i hk
    refine ⟨_, _, Or.inl ⟨hk, rfl, rfl⟩, ?_⟩
    rw [hself]
    rcases baseDetach_cases s c slot with ⟨d, h1, h2, h3⟩ | ⟨h1, h3⟩ <;> rw [h3] at h <;>
      injection h with h
    · left; exact ⟨d, h1, h2, by simp [← h, Sys.emit, Sys.setDev]⟩
    · right; exact ⟨h1, by simp [← h, Sys.emit]⟩
  · rename_i hk
    split at h
    · cases h
    · rename_i d hd2
      refine ⟨_, _, Or.inr ⟨hk, d, hd2, rfl, rfl⟩, ?_⟩
      rcases baseDetach_cases (s.setChan c { s.chan c with
          gnd := mapErase (s.dev d).addr (s.chan c).gnd, sat := mapErase (s.dev d).addr (s.chan c).sat }) c slot
        with ⟨d', h1, h2, h3⟩ | ⟨h1, h3⟩ <;> simp only [h3] at h <;> injection h with h
      · left
        simp only [Sys.setChan, if_true] at h1 h2
        exact ⟨d', h1, h2, by simp [← h, Sys.emit, Sys.setDev, Sys.setChan]⟩
      · right
        simp only [Sys.setChan, if_true] at h1
        exact ⟨h1, by simp [← h, Sys.emit, Sys.setChan]⟩

end Verif
