import Verif.Lemmas.NetDrain
/-! A three-way view of every operation: quiet, reception, transmission. -/

namespace Verif
open Spec

/-- The slot remembered by an attached device is its own. -/
def Wired (s : Sys) : Prop :=
  ∀ d c, (s.dev d).chan = some c → (s.chan c).link[(s.dev d).chanSlot]? = some d

/-- Parts of a device that only its setters and `attach` change. -/
structure SameCfg (v w : Dev) : Prop where
  leo : v.leo = w.leo
  side : v.side = w.side
  node : v.node = w.node
  addr : v.addr = w.addr
  linkUp : v.linkUp = w.linkUp
  hasQueue : v.hasQueue = w.hasQueue
  cap : v.cap = w.cap
  chan : v.chan = w.chan
  chanSlot : v.chanSlot = w.chanSlot
  rate : v.rate = w.rate
  gap : v.gap = w.gap
  mtu : v.mtu = w.mtu
  txPower : v.txPower = w.txPower
  rxThreshold : v.rxThreshold = w.rxThreshold
  rxGain : v.rxGain = w.rxGain
  rxLoss : v.rxLoss = w.rxLoss
  rxCb : v.rxCb = w.rxCb
  promiscCb : v.promiscCb = w.promiscCb

theorem SameCfg.refl (v : Dev) : SameCfg v v :=
  ⟨rfl, rfl, rfl, rfl, rfl, rfl, rfl, rfl, rfl, rfl, rfl, rfl, rfl, rfl, rfl, rfl, rfl, rfl⟩

/-- Not a transmission or reception event. -/
def AirFreeEv : Ev → Prop
  | .txrx .. | .phyTxBegin .. | .onAir .. | .recvCall .. | .phyTxDrop .. => False
  | _ => True

/-- Entries without transmission or reception events. -/
def AirFree (l : List (Time × Ev)) : Prop := ∀ e ∈ l, AirFreeEv e.2

theorem AirFree.append {l m : List (Time × Ev)} (h1 : AirFree l) (h2 : AirFree m) : AirFree (l ++ m) := by
  intro e he
  rcases List.mem_append.mp he with he | he
  · exact h1 e he
  · exact h2 e he

/-- Entries without transmission, reception or receive-callback events. -/
def MuteEv : Ev → Prop
  | .txrx .. | .phyTxBegin .. | .onAir .. | .recvCall .. | .phyTxDrop .. | .rxCallback .. | .promiscCallback .. => False
  | _ => True

def Mute (l : List (Time × Ev)) : Prop := ∀ e ∈ l, MuteEv e.2

theorem Mute.air {l : List (Time × Ev)} (h : Mute l) : AirFree l := by
  intro e he
  have := h e he
  obtain ⟨t, e⟩ := e
  cases e <;> first | trivial | exact this

theorem airFree_rxEvs {d : DevId} (now : Time) {l : List Ev} (hl : ∀ e ∈ l, RxEv d e) :
    AirFree (l.map (fun e => (now, e))) := by
  intro e he
  obtain ⟨x, hx, rfl⟩ := List.mem_map.mp he
  have := hl x hx
  cases x <;> first | exact trivial | (exfalso; exact this)

/-- What one operation does, seen from the channels. -/
inductive NetStep (E : Env) (s : Sys) (op : Op) (s' : Sys) : Prop where
  | quiet (l : List (Time × Ev)) (hlog : s'.log = s.log ++ l) (hl : Mute l)
      (hp : s'.pending = s.pending ∨
        ∃ d dest, s.pending = ⟨s'.now, .txComplete d dest⟩ :: s'.pending)
  | recv (d : DevId) (f : Bytes) (src : DevId) (rx : Power) (l : List Ev) (hop : op = .run)
      (hp : s.pending = ⟨s'.now, .receive d f src rx⟩ :: s'.pending)
      (hlog : s'.log = s.log ++ ((s'.now, .recvCall d f src rx) :: l.map (fun e => (s'.now, e))))
      (hl : ∀ e ∈ l, RxEv d e) (hd : s'.dev = s.dev) (hc : s'.chan = s.chan)
      (hcall : receive E { s with now := s'.now, pending := s'.pending } d f src rx = .ok s')
  | tx (d : DevId) (f : Bytes) (dest : Addr) (c : ChanId) (rs : List Recv) (b : Bool) (ps : List Pending)
      (l1 l2 : List (Time × Ev))
      (hchan : (s.dev d).chan = some c)
      (hrs : rs = (audience s c (s.dev d).chanSlot dest).filterMap
        (recvOf E { s with now := s'.now } c d (E.txTime (s.dev d).rate f.length)))
      (hb : b = true ↔ rs ≠ [] ∨ Floods s c (s.dev d).chanSlot dest)
      (hps : (ps = s.pending ∧ s'.now = s.now ∧ SendsFrame E s op d dest f) ∨
        (op = .run ∧ s.pending = ⟨s'.now, .txComplete d dest⟩ :: ps ∧ ∃ rest, (s.dev d).queue = f :: rest))
      (hp : s'.pending = insertAll (rs.map (Recv.pend s'.now f d))
        (insertPending ⟨s'.now + (E.txTime (s.dev d).rate f.length + (s.dev d).gap), .txComplete d dest⟩ ps))
      (hlog : s'.log = s.log ++ (l1 ++ ([(s'.now, .phyTxBegin d f), (s'.now, .onAir d f dest)] ++
        (rs.map (Recv.entry s'.now c f d (E.txTime (s.dev d).rate f.length)) ++
          ((if b then [] else [(s'.now, .phyTxDrop d f)]) ++ l2)))))
      (hl1 : Mute l1) (hl2 : Mute l2)
      (hd : ∀ x, SameCfg (s'.dev x) (s.dev x)) (hc : s'.chan = s.chan)

theorem audience_congr {s t : Sys} (hc : t.chan = s.chan) (ha : ∀ x, (t.dev x).addr = (s.dev x).addr)
    (c : ChanId) (slot : Nat) (dest : Addr) : audience t c slot dest = audience s c slot dest := by
  unfold audience; simp only [hc, ha]

theorem floods_congr {s t : Sys} (hc : t.chan = s.chan) (ha : ∀ x, (t.dev x).addr = (s.dev x).addr)
    (c : ChanId) (slot : Nat) (dest : Addr) : Floods t c slot dest ↔ Floods s c slot dest := by
  unfold Floods; simp only [hc, ha]

theorem recvOf_congr {E : Env} {s t : Sys} (hn : t.now = s.now) (h1 : ∀ x, (t.dev x).node = (s.dev x).node)
    (h2 : ∀ x, (t.dev x).txPower = (s.dev x).txPower) (c : ChanId) (src : DevId) (T : Time) :
    recvOf E t c src T = recvOf E s c src T := by
  funext x
  unfold recvOf; simp only [hn, h1, h2]

/-- A transmission started in an intermediate state `t` of the operation. -/
theorem tx_view {E : Env} {s t s3 : Sys} {d : DevId} {f : Bytes} {dest : Addr} (hw : Wired s)
    (hcfg : ∀ x, SameCfg (t.dev x) (s.dev x)) (hc : t.chan = s.chan)
    (h : transmitStart E t d f dest = .ok s3) :
    ∃ c rs b, (s.dev d).chan = some c ∧
      rs = (audience s c (s.dev d).chanSlot dest).filterMap
        (recvOf E { s with now := t.now } c d (E.txTime (s.dev d).rate f.length)) ∧
      (b = true ↔ rs ≠ [] ∨ Floods s c (s.dev d).chanSlot dest) ∧ s3 = txState E t d f dest c d rs b := by
  obtain ⟨_, c, src, rs, b, hchan, _, _, h3, haud, hret, hsrc⟩ := transmitStart_aud h
  rw [(hcfg d).chan] at hchan
  rw [(hcfg d).chanSlot, hc] at hsrc
  have := hsrc d (hw d c hchan)
  subst this
  refine ⟨c, rs, b, hchan, ?_, by rw [(hcfg src).chanSlot, floods_congr hc (fun x => (hcfg x).addr)] at hret; exact hret, h3⟩
  rw [haud, (hcfg src).chanSlot, (hcfg src).rate, audience_congr hc (fun x => (hcfg x).addr),
    recvOf_congr (t := t) (s := { s with now := t.now }) rfl (fun x => (hcfg x).node) (fun x => (hcfg x).txPower)]

theorem sameCfg_txState {E : Env} {t : Sys} {d : DevId} {f : Bytes} {dest : Addr} {c : ChanId} {src : DevId}
    {rs : List Recv} {b : Bool} {v : Dev} {x : DevId} (h : SameCfg (t.dev x) v) :
    SameCfg ((txState E t d f dest c src rs b).dev x) v := by
  obtain ⟨h1, h2, h3, h4, h5, h6, h7, h8, h9, h10, h11, h12, h13, h14, h15, h16, h17, h18⟩ := h
  by_cases hx : x = d
  · subst hx
    simp only [txState, if_true]
    exact ⟨h1, h2, h3, h4, h5, h6, h7, h8, h9, h10, h11, h12, h13, h14, h15, h16, h17, h18⟩
  · simp only [txState, hx, if_false]
    exact ⟨h1, h2, h3, h4, h5, h6, h7, h8, h9, h10, h11, h12, h13, h14, h15, h16, h17, h18⟩

theorem netStep_step {E : Env} {s s' : Sys} {op : Op} (hi : Inv s) (hw : Wired s) (h : step E s op = .ok s') :
    NetStep E s op s' := by
  cases op with
  | send d p dest proto =>
    rcases send_ok h with ⟨_, rfl⟩ | ⟨hlu, _, m, hm, f, hf, hcase⟩
    · exact .quiet _ rfl (by intro e he; simp at he; rcases he with rfl | rfl <;> exact trivial) (Or.inl rfl)
    · rcases hcase with ⟨_, rfl⟩ | ⟨hlen, hb, rfl⟩ | ⟨hlen, hb, g, rest, s3, hq, hts, rfl⟩
      · exact .quiet _ rfl (by intro e he; simp at he; rcases he with rfl | rfl | rfl <;> exact trivial) (Or.inl rfl)
      · exact .quiet _ rfl (by intro e he; simp at he; rcases he with rfl | rfl <;> exact trivial) (Or.inl rfl)
      · rw [((hi.dev d).ready hb).2.1] at hq
        simp only [List.nil_append, List.cons.injEq] at hq
        obtain ⟨rfl, rfl⟩ := hq
        have hcfg : ∀ x, SameCfg (({ s with
            dev := (fun x => if x = d then { s.dev d with queue := [] } else s.dev x),
            log := s.log ++ [(s.now, .macTx d f), (s.now, .promiscSniffer d f), (s.now, .sniffer d f)] } : Sys).dev x)
            (s.dev x) := by
          intro x
          by_cases hx : x = d
          · subst hx; simp only [if_true]; exact ⟨rfl, rfl, rfl, rfl, rfl, rfl, rfl, rfl, rfl, rfl, rfl, rfl, rfl, rfl, rfl, rfl, rfl, rfl⟩
          · simp only [hx, if_false]; exact SameCfg.refl _
        obtain ⟨c, rs, b, hchan, hrs, hret, rfl⟩ := tx_view hw hcfg rfl hts
        refine .tx d f dest c rs b s.pending
          [(s.now, .macTx d f), (s.now, .promiscSniffer d f), (s.now, .sniffer d f)]
          [(s.now, .sendRet d p dest proto true f)] hchan hrs hret
          (Or.inl ⟨rfl, rfl, p, proto, m, rfl, hm, hf⟩) (by simp [txState]) (by simp [txState])
          (by intro e he; simp at he; rcases he with rfl | rfl | rfl <;> exact trivial)
          (by intro e he; simp at he; rcases he with rfl; exact trivial)
          (fun x => sameCfg_txState (E := E) (dest := dest) (c := c) (src := d) (rs := rs) (b := b) (hcfg x)) rfl
  | sendFrom d p src dest proto =>
    injection h with h; subst h
    exact .quiet _ rfl (by intro e he; simp at he; rcases he with rfl; exact trivial) (Or.inl rfl)
  | attach d c =>
    obtain ⟨g, t, _, rfl⟩ := attach_ok h
    exact .quiet _ rfl (by intro e he; simp at he; rcases he with rfl | rfl <;> exact trivial) (Or.inl rfl)
  | detach c slot =>
    obtain ⟨g, t, _, h⟩ := detach_ok h
    rcases h with ⟨d, _, _, rfl⟩ | ⟨_, rfl⟩
    · exact .quiet _ rfl (by intro e he; simp at he; rcases he with rfl | rfl <;> exact trivial) (Or.inl rfl)
    · exact .quiet _ rfl (by intro e he; simp at he; rcases he with rfl; exact trivial) (Or.inl rfl)
  | setAddress d a =>
    cases a with
    | other => cases h
    | mac m =>
      injection h with h; subst h
      exact .quiet [] (by simp [Sys.setDev]) (by intro e he; cases he) (Or.inl rfl)
  | run =>
    simp only [step, run] at h
    split at h
    · injection h with h; subst h
      exact .quiet [] (by simp) (by intro e he; cases he) (Or.inl rfl)
    · rename_i p ps hp
      obtain ⟨t, a⟩ := p
      cases a with
      | receive d f src rx =>
        have h0 := h
        obtain ⟨l, hl, rfl⟩ := receive_ok h
        exact .recv d f src rx l rfl hp rfl hl rfl rfl h0
      | txComplete d dest =>
        obtain ⟨hb, _, f, hcur, hcase⟩ := transmitComplete_ok h
        rcases hcase with ⟨hq, rfl⟩ | ⟨q, rest, hq, hts⟩
        · exact .quiet _ rfl (by intro e he; simp at he; rcases he with rfl; exact trivial) (Or.inr ⟨d, dest, hp⟩)
        · have hcfg : ∀ x, SameCfg (({ s with
              dev := (fun x => if x = d then { s.dev d with busy := false, cur := none, queue := rest } else s.dev x),
              now := t, pending := ps,
              log := s.log ++ [(t, .phyTxEnd d f), (t, .sniffer d q), (t, .promiscSniffer d q)] } : Sys).dev x)
              (s.dev x) := by
            intro x
            by_cases hx : x = d
            · subst hx; simp only [if_true]; exact ⟨rfl, rfl, rfl, rfl, rfl, rfl, rfl, rfl, rfl, rfl, rfl, rfl, rfl, rfl, rfl, rfl, rfl, rfl⟩
            · simp only [hx, if_false]; exact SameCfg.refl _
          obtain ⟨c, rs, b, hchan, hrs, hret, rfl⟩ := tx_view hw hcfg rfl hts
          refine .tx d q dest c rs b ps
            [(t, .phyTxEnd d f), (t, .sniffer d q), (t, .promiscSniffer d q)] [] hchan hrs hret
            (Or.inr ⟨rfl, hp, rest, hq⟩) (by simp [txState]) (by simp [txState])
            (by intro e he; simp at he; rcases he with rfl | rfl | rfl <;> exact trivial)
            (by intro e he; cases he)
            (fun x => sameCfg_txState (E := E) (dest := dest) (c := c) (src := d) (rs := rs) (b := b) (hcfg x)) rfl
  | wait dt =>
    simp only [step] at h
    split at h <;> injection h with h <;> subst h <;>
      exact .quiet [] (by simp) (by intro e he; cases he) (Or.inl rfl)
  | _ =>
    injection h with h; subst h
    exact .quiet [] (by simp [Sys.setDev]) (by intro e he; cases he) (Or.inl rfl)

/-! ### Wiring -/

/-- Device configuration and channels change only by setters, `attach` and `detach`. -/
theorem cfg_step {E : Env} {s s' : Sys} {op : Op} (h : step E s op = .ok s') :
    (∀ x, (s'.dev x).chan = (s.dev x).chan ∧ (s'.dev x).chanSlot = (s.dev x).chanSlot ∧
      (s'.dev x).node = (s.dev x).node ∧ (s'.dev x).leo = (s.dev x).leo ∧
      (s'.dev x).hasQueue = (s.dev x).hasQueue ∧ (s'.dev x).rxCb = (s.dev x).rxCb) ∨
    ∃ d c, op = .attach d c := by
  have set : ∀ (d : DevId) (v : Dev), v.chan = (s.dev d).chan → v.chanSlot = (s.dev d).chanSlot →
      v.node = (s.dev d).node → v.leo = (s.dev d).leo → v.hasQueue = (s.dev d).hasQueue → v.rxCb = (s.dev d).rxCb →
      ∀ x, ((s.setDev d v).dev x).chan = (s.dev x).chan ∧ ((s.setDev d v).dev x).chanSlot = (s.dev x).chanSlot ∧
      ((s.setDev d v).dev x).node = (s.dev x).node ∧ ((s.setDev d v).dev x).leo = (s.dev x).leo ∧
      ((s.setDev d v).dev x).hasQueue = (s.dev x).hasQueue ∧ ((s.setDev d v).dev x).rxCb = (s.dev x).rxCb := by
    intro d v h1 h2 h3 h4 h5 h6 x
    by_cases hx : x = d
    · subst hx; simp [Sys.setDev, h1, h2, h3, h4, h5, h6]
    · simp [Sys.setDev, hx]
  cases op with
  | send d p dest proto =>
    left
    rcases send_ok h with ⟨_, rfl⟩ | ⟨hlu, _, m, hm, f, hf, hcase⟩
    · intro x; simp
    · rcases hcase with ⟨_, rfl⟩ | ⟨hlen, hb, rfl⟩ | ⟨hlen, hb, g, rest, s3, hq, hts, rfl⟩
      · intro x; simp
      · intro x; by_cases hx : x = d <;> simp [hx]
      · obtain ⟨_, c, src, rs, b, hchan, _, _, rfl⟩ := transmitStart_ok hts
        intro x; by_cases hx : x = d <;> simp [txState, hx]
  | sendFrom => injection h with h; subst h; left; intro x; simp [Sys.emit]
  | attach d c => exact Or.inr ⟨d, c, rfl⟩
  | detach c slot =>
    left
    obtain ⟨g, t, _, h⟩ := detach_ok h
    rcases h with ⟨d, _, _, rfl⟩ | ⟨_, rfl⟩
    · intro x; by_cases hx : x = d <;> simp [hx]
    · intro x; simp
  | setAddress d a =>
    cases a with
    | other => cases h
    | mac m => injection h with h; subst h; left; apply set <;> rfl
  | run =>
    left
    simp only [step, run] at h
    split at h
    · injection h with h; subst h; intro x; simp
    · rename_i p ps hp
      obtain ⟨t, a⟩ := p
      cases a with
      | receive d f src rx =>
        obtain ⟨l, hl, rfl⟩ := receive_ok h
        intro x; simp
      | txComplete d dest =>
        obtain ⟨hb, _, f, hcur, hcase⟩ := transmitComplete_ok h
        rcases hcase with ⟨hq, rfl⟩ | ⟨q, rest, hq, hts⟩
        · intro x; by_cases hx : x = d <;> simp [hx]
        · obtain ⟨_, c, src, rs, b, hchan, _, _, hs3⟩ := transmitStart_ok hts
          rw [hs3]
          intro x; by_cases hx : x = d <;> simp [txState, hx]
  | wait dt =>
    left
    simp only [step] at h
    split at h <;> injection h with h <;> subst h <;> intro x <;> simp
  | _ => injection h with h; subst h; left; apply set <;> rfl

theorem wired_step {E : Env} {s s' : Sys} {op : Op} (hw : Wired s) (h : step E s op = .ok s') : Wired s' := by
  rcases cfg_step h with hcfg | ⟨d, c, rfl⟩
  · have hlink : ∀ c, (s'.chan c).link = (s.chan c).link ∨ ∃ d, op = .attach d c := by
      intro c
      rcases chan_step h with h1 | ⟨d, c', rfl⟩ | ⟨c', slot, rfl⟩
      · rw [h1]; exact Or.inl rfl
      · obtain ⟨g, t, _, rfl⟩ := attach_ok h
        by_cases hc : c = c'
        · subst hc; exact Or.inr ⟨d, rfl⟩
        · left; simp [hc]
      · obtain ⟨g, t, _, h⟩ := detach_ok h
        left
        rcases h with ⟨d, _, _, rfl⟩ | ⟨_, rfl⟩ <;> by_cases hc : c = c' <;> simp [hc]
    intro x c hx
    rw [(hcfg x).1] at hx
    rw [(hcfg x).2.1]
    have hwx := hw x c hx
    rcases hlink c with h1 | ⟨d, rfl⟩
    · rw [h1]; exact hwx
    · obtain ⟨g, t, _, rfl⟩ := attach_ok h
      simp only [if_true]
      rw [List.getElem?_append_left]
      · exact hwx
      · exact (List.getElem?_eq_some_iff.mp hwx).1
  · obtain ⟨g, t, _, rfl⟩ := attach_ok h
    intro x c' hx
    by_cases hxd : x = d
    · subst hxd
      simp only [if_true, Option.some.injEq] at hx
      subst hx
      simp
    · simp only [hxd, if_false] at hx ⊢
      have hwx := hw x c' hx
      by_cases hc : c' = c
      · subst hc
        simp only [if_true]
        rw [List.getElem?_append_left]
        · exact hwx
        · exact (List.getElem?_eq_some_iff.mp hwx).1
      · simp only [hc, if_false]; exact hwx

theorem wired_initial {s : Sys} (h : Initial s) : Wired s := by
  intro d c hd
  rw [(h.idle d).2.2.2.2] at hd; cases hd

theorem wired_exec {E : Env} {s s' : Sys} {ops : List Op} (hw : Wired s) (h : exec E s ops = .ok s') : Wired s' :=
  exec_induct (P := Wired) (fun _ _ _ hP hs => wired_step hP hs) hw h

end Verif
