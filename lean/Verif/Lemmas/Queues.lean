import Verif.Lemmas.NetFault
import Verif.Lemmas.NetDrain
import Verif.Spec.Queues
/-! What one operation does to the transmitters, whatever is in the queues. -/

namespace Verif
open Spec

/-- Number of pending completions. -/
def txcn (d : DevId) (ps : List Pending) : Nat := (txc d ps).length

theorem length_filterMap_insertPending {α : Type} {g : Pending → Option α} {p : Pending} {x : α} (h : g p = some x)
    (l : List Pending) : ((insertPending p l).filterMap g).length = (l.filterMap g).length + 1 := by
  rw [((insertPending_perm p l).filterMap g).length_eq, List.filterMap_cons_some h, List.length_cons]

theorem txcn_insert_self (d : DevId) (ps : List Pending) (t : Time) (dest : Addr) :
    txcn d (insertPending ⟨t, .txComplete d dest⟩ ps) = txcn d ps + 1 :=
  length_filterMap_insertPending (x := (t, dest)) (by simp) ps

/-- Nothing changed for the transmitter and the queue of this device. -/
structure Untouched (s s' : Sys) (l : List (Time × Ev)) (x : DevId) : Prop where
  busy : (s'.dev x).busy = (s.dev x).busy
  cur : (s'.dev x).cur = (s.dev x).cur
  queue : (s'.dev x).queue = (s.dev x).queue
  pend : txcn x s'.pending = txcn x s.pending
  log : Neutral x l

/-- What a transmitter does in one operation. -/
inductive Turn (s s' : Sys) (l : List (Time × Ev)) (d : DevId) : Prop
  | kept (h : Untouched s s' l d)
  | queued (f : Bytes) (b : (s.dev d).busy = true) (b' : (s'.dev d).busy = true) (c : (s'.dev d).cur = (s.dev d).cur)
      (q : (s'.dev d).queue = (s.dev d).queue ++ [f]) (n : txcn d s'.pending = txcn d s.pending)
      (la : accepted d l = [f]) (lb : begun d l = []) (le : ended d l = []) (lp : phases d l = [])
  | started (f g : Bytes) (b : (s.dev d).busy = false) (b' : (s'.dev d).busy = true) (c : (s'.dev d).cur = some g)
      (q : (s.dev d).queue ++ [f] = g :: (s'.dev d).queue) (n : txcn d s'.pending = txcn d s.pending + 1)
      (la : accepted d l = [f]) (lb : begun d l = [g]) (le : ended d l = []) (lp : phases d l = [.start g])
  | finished (f : Bytes) (b : (s.dev d).busy = true) (b' : (s'.dev d).busy = false) (c : (s.dev d).cur = some f)
      (c' : (s'.dev d).cur = none) (q : (s.dev d).queue = []) (q' : (s'.dev d).queue = [])
      (n : txcn d s'.pending + 1 = txcn d s.pending)
      (la : accepted d l = []) (lb : begun d l = []) (le : ended d l = [f]) (lp : phases d l = [.stop f])
  | next (f g : Bytes) (b : (s.dev d).busy = true) (b' : (s'.dev d).busy = true) (c : (s.dev d).cur = some f)
      (c' : (s'.dev d).cur = some g) (q : (s.dev d).queue = g :: (s'.dev d).queue)
      (n : txcn d s'.pending = txcn d s.pending)
      (la : accepted d l = []) (lb : begun d l = [g]) (le : ended d l = [f]) (lp : phases d l = [.stop f, .start g])

/-- One operation: only the device that touches its queue can have a turn. -/
structure Moves (s s' : Sys) (l : List (Time × Ev)) (touch : Option DevId) : Prop where
  log : s'.log = s.log ++ l
  conf : ∀ x, (s'.dev x).hasQueue = (s.dev x).hasQueue ∧ (s'.dev x).cap = (s.dev x).cap
  chan : ∀ x, ((s.dev x).linkUp = true ∨ (s.dev x).busy = true → (s.dev x).chan.isSome = true) →
    ((s'.dev x).linkUp = true ∨ (s'.dev x).busy = true → (s'.dev x).chan.isSome = true)
  others : ∀ x, touch ≠ some x → Untouched s s' l x
  own : ∀ d, touch = some d → Turn s s' l d
  noQueue : ∀ d, touch = some d → (s.dev d).hasQueue = false → Untouched s s' l d

theorem Untouched.same {s s' : Sys} {l : List (Time × Ev)} {x : DevId} (hd : s'.dev x = s.dev x)
    (hp : txcn x s'.pending = txcn x s.pending) (hl : Neutral x l) : Untouched s s' l x :=
  ⟨by rw [hd], by rw [hd], by rw [hd], hp, hl⟩

/-- Operations that leave every transmitter alone. -/
theorem Moves.quiet {s s' : Sys} {l : List (Time × Ev)} {touch : Option DevId} (hlog : s'.log = s.log ++ l)
    (hdev : ∀ x, (s'.dev x).busy = (s.dev x).busy ∧ (s'.dev x).cur = (s.dev x).cur ∧ (s'.dev x).queue = (s.dev x).queue ∧
      (s'.dev x).hasQueue = (s.dev x).hasQueue ∧ (s'.dev x).cap = (s.dev x).cap)
    (hchan : ∀ x, ((s.dev x).linkUp = true ∨ (s.dev x).busy = true → (s.dev x).chan.isSome = true) →
      ((s'.dev x).linkUp = true ∨ (s'.dev x).busy = true → (s'.dev x).chan.isSome = true))
    (hp : ∀ x, txcn x s'.pending = txcn x s.pending) (hl : ∀ x, Neutral x l) : Moves s s' l touch :=
  have hk : ∀ x, Untouched s s' l x := fun x => ⟨(hdev x).1, (hdev x).2.1, (hdev x).2.2.1, hp x, hl x⟩
  ⟨hlog, fun x => (hdev x).2.2.2, hchan, fun x _ => hk x, fun d _ => .kept (hk d), fun d _ _ => hk d⟩

theorem moves_emit {s : Sys} {l : List (Time × Ev)} {touch : Option DevId} (hl : ∀ x, Neutral x l) :
    Moves s { s with log := s.log ++ l } l touch :=
  .quiet rfl (fun _ => ⟨rfl, rfl, rfl, rfl, rfl⟩) (fun _ h => h) (fun _ => rfl) hl

theorem moves_set {s : Sys} {d : DevId} {v : Dev} {touch : Option DevId}
    (hb : v.busy = (s.dev d).busy) (hc : v.cur = (s.dev d).cur) (hq : v.queue = (s.dev d).queue)
    (hh : v.hasQueue = (s.dev d).hasQueue) (hcap : v.cap = (s.dev d).cap)
    (hl : v.linkUp = (s.dev d).linkUp) (hch : v.chan = (s.dev d).chan) : Moves s (s.setDev d v) [] touch := by
  refine .quiet (by simp [Sys.setDev]) (fun x => ?_) (fun x hc' => ?_) (fun _ => rfl) (fun _ => ⟨rfl, rfl, rfl, rfl⟩)
  · by_cases hx : x = d
    · subst hx; simp [Sys.setDev, hb, hc, hq, hh, hcap]
    · simp [Sys.setDev, hx]
  · by_cases hx : x = d
    · subst hx; simpa [Sys.setDev, hb, hl, hch] using hc'
    · simpa [Sys.setDev, hx] using hc'

theorem moves_attach {s s' : Sys} {d : DevId} {c : ChanId} (h : attach s d c = .ok s') :
    ∃ l, Moves s s' l none := by
  obtain ⟨g, t, _, rfl⟩ := attach_ok h
  refine ⟨_, .quiet rfl (fun x => ?_) (fun x hc => ?_) (fun _ => rfl) (fun _ => ⟨rfl, rfl, rfl, rfl⟩)⟩
  · by_cases hx : x = d
    · subst hx; simp
    · simp [hx]
  · by_cases hx : x = d
    · subst hx; simp
    · simpa [hx] using hc

theorem moves_detach {s s' : Sys} {c : ChanId} {slot : Nat} (h : detach s c slot = .ok s') :
    ∃ l, Moves s s' l none := by
  obtain ⟨g, t, _, h⟩ := detach_ok h
  rcases h with ⟨d, _, _, rfl⟩ | ⟨_, rfl⟩
  · refine ⟨_, .quiet rfl (fun x => ?_) (fun x hc => ?_) (fun _ => rfl) (fun _ => ⟨rfl, rfl, rfl, rfl⟩)⟩
    · by_cases hx : x = d
      · subst hx; simp
      · simp [hx]
    · by_cases hx : x = d
      · subst hx; intro hh; simp at hh; simpa using hc (Or.inr hh)
      · simpa [hx] using hc
  · exact ⟨_, .quiet rfl (fun _ => ⟨rfl, rfl, rfl, rfl, rfl⟩) (fun _ h => h) (fun _ => rfl) (fun _ => ⟨rfl, rfl, rfl, rfl⟩)⟩

/-- The log and list of events of a transmission, for the sender and for the others. -/
theorem txState_self {E : Env} {s : Sys} {d : DevId} {f : Bytes} {dest : Addr} {c : ChanId} {src : DevId}
    {rs : List Recv} {b : Bool} :
    ∃ m, (txState E s d f dest c src rs b).log = s.log ++ m ∧ accepted d m = [] ∧ begun d m = [f] ∧ ended d m = [] ∧
      phases d m = [.start f] ∧ (∀ x, x ≠ d → Neutral x m) ∧
      txcn d (txState E s d f dest c src rs b).pending = txcn d s.pending + 1 ∧
      ∀ x, x ≠ d → txcn x (txState E s d f dest c src rs b).pending = txcn x s.pending := by
  have hN : ∀ x, Neutral x (rs.map (Recv.entry s.now c f src (E.txTime (s.dev d).rate f.length))
      ++ if b then [] else [(s.now, Ev.phyTxDrop d f)]) :=
    fun x => (Neutral.entries _ _ _ _ _ _ _).append (neutral_drop _ _ _ _ _)
  refine ⟨_, rfl, ?_, ?_, ?_, ?_, fun x hx => Neutral.tx_other (fun h => hx h.symm) (hN x), ?_, fun x hx => ?_⟩
  all_goals try
    obtain ⟨n1, n2, n3, n4⟩ := hN d
    generalize (rs.map (Recv.entry s.now c f src (E.txTime (s.dev d).rate f.length))
      ++ if b then [] else [(s.now, Ev.phyTxDrop d f)]) = tail at n1 n2 n3 n4 ⊢
  · unfold accepted at *; simp [n1, acceptedEv]
  · unfold begun at *; simp [n2, begunEv]
  · unfold ended at *; simp [n3, endedEv]
  · unfold phases at *; simp [n4, phaseEv]
  · simp only [txState]
    unfold txcn
    rw [txc_insertAll_recv]
    exact txcn_insert_self _ _ _ _
  · simp only [txState]
    unfold txcn
    rw [txc_insertAll_recv, txc_insert_other (fun h => hx h.symm)]

theorem moves_send {E : Env} {s s' : Sys} {d : DevId} {p : Bytes} {dest : Addr} {proto : UInt16}
    (h : send E s d p dest proto = .ok s') : ∃ l, Moves s s' l (some d) := by
  rcases send_ok h with ⟨_, rfl⟩ | ⟨hlu, hhq, m, _, f, hf, hcase⟩
  · exact ⟨_, moves_emit fun _ => ⟨rfl, rfl, rfl, rfl⟩⟩
  · rcases hcase with ⟨_, rfl⟩ | ⟨hlen, hb, rfl⟩ | ⟨hlen, hb, g, rest, s3, hq, hts, rfl⟩
    · exact ⟨_, moves_emit fun _ => ⟨rfl, rfl, rfl, rfl⟩⟩
    · refine ⟨_, rfl, fun x => ?_, fun x hc => ?_, fun x hx => ?_, ?_, fun y hy hn => by
        obtain rfl : d = y := by simpa using hy
        rw [hhq] at hn; cases hn⟩
      · by_cases hx : x = d
        · subst hx; simp
        · simp [hx]
      · by_cases hx : x = d
        · subst hx; simpa using hc
        · simpa [hx] using hc
      · have hx : ¬ d = x := fun hh => hx (by rw [hh])
        have hx' : ¬ x = d := fun hh => hx hh.symm
        refine .same (by simp [hx']) rfl ⟨by simp [accepted, acceptedEv, hx], rfl, rfl, rfl⟩
      · intro d' hd
        obtain rfl : d = d' := by simpa using hd
        exact .queued f hb (by simpa using hb) (by simp) (by simp) rfl (by simp [accepted, acceptedEv]) rfl rfl rfl
    · obtain ⟨_, c, src, rs, b, hchan, _, _, rfl⟩ := transmitStart_ok hts
      obtain ⟨m, h1, h2, h3, h4, h5, h6, h7, h8⟩ := txState_self (E := E) (s := { s with
          dev := (fun x => if x = d then { s.dev d with queue := rest } else s.dev x),
          log := s.log ++ [(s.now, .macTx d f), (s.now, .promiscSniffer d g), (s.now, .sniffer d g)] })
          (d := d) (f := g) (dest := dest) (c := c) (src := src) (rs := rs) (b := b)
      refine ⟨[(s.now, .macTx d f), (s.now, .promiscSniffer d g), (s.now, .sniffer d g)] ++ (m ++
        [(s.now, .sendRet d p dest proto true f)]), ?_, fun x => ?_, fun x hc => ?_, fun x hx => ?_, ?_, fun y hy hn => by
        obtain rfl : d = y := by simpa using hy
        rw [hhq] at hn; cases hn⟩
      · simp only [h1]
        simp [txState]
      · by_cases hx : x = d
        · subst hx; simp [txState]
        · simp [txState, hx]
      · by_cases hx : x = d
        · subst hx; simpa [txState] using (by simpa using hchan : (s.dev x).chan = some c) ▸ rfl
        · simpa [txState, hx] using hc
      · have hx : ¬ d = x := fun hh => hx (by rw [hh])
        have hx' : ¬ x = d := fun hh => hx hh.symm
        refine .same (by simp [txState, hx']) (h8 x hx') (.append ⟨rfl, rfl, rfl, rfl⟩ (.append (h6 x hx')
          ⟨by simp [accepted, acceptedEv, hx], rfl, rfl, rfl⟩))
      · intro d' hd
        obtain rfl : d = d' := by simpa using hd
        unfold accepted begun ended phases at *
        refine .started f g hb (by simp [txState]) (by simp [txState]) (by simpa [txState] using hq) h7 ?_ ?_ ?_ ?_
        · simp [accepted, acceptedEv, h2]
        · simp [begun, begunEv, h3]
        · simp [ended, endedEv, h4]
        · simp [phases, phaseEv, h5]

theorem moves_complete {E : Env} {s s' : Sys} {t : Time} {ps : List Pending} {d : DevId} {dest : Addr}
    (hp : s.pending = ⟨t, .txComplete d dest⟩ :: ps)
    (h : transmitComplete E { s with now := t, pending := ps } d dest = .ok s') : ∃ l, Moves s s' l (some d) := by
  obtain ⟨hb, hhq, f, hcur, hcase⟩ := transmitComplete_ok h
  simp only at hb hhq hcur hcase
  have htd : txcn d ps + 1 = txcn d s.pending := by
    unfold txcn
    rw [hp, txc_cons]
    simp
  have htx : ∀ y, y ≠ d → txcn y ps = txcn y s.pending := by
    intro y hy
    unfold txcn
    rw [hp, txc_cons]
    have hy' : ¬ d = y := fun hh => hy hh.symm
    simp [hy']
  rcases hcase with ⟨hq, rfl⟩ | ⟨p, rest, hq, hts⟩
  · refine ⟨_, rfl, fun x => ?_, fun x hc => ?_, fun x hx => ?_, ?_, fun y hy hn => by
        obtain rfl : d = y := by simpa using hy
        rw [hhq] at hn; cases hn⟩
    · by_cases hx : x = d
      · subst hx; simp
      · simp [hx]
    · by_cases hx : x = d
      · subst hx; intro _; simpa using hc (Or.inr hb)
      · simpa [hx] using hc
    · have hx : ¬ d = x := fun hh => hx (by rw [hh])
      have hx' : ¬ x = d := fun hh => hx hh.symm
      exact .same (by simp [hx']) (htx x hx') ⟨rfl, rfl, by simp [ended, endedEv, hx], by simp [phases, phaseEv, hx]⟩
    · intro d' hd
      obtain rfl : d = d' := by simpa using hd
      exact .finished f hb (by simp) hcur (by simp) hq (by simpa using hq) htd rfl rfl (by simp [ended, endedEv])
        (by simp [phases, phaseEv])
  · obtain ⟨_, c, src, rs, b, hchan, _, _, rfl⟩ := transmitStart_ok hts
    obtain ⟨m, h1, h2, h3, h4, h5, h6, h7, h8⟩ := txState_self (E := E) (s := { s with
          dev := fun y => if y = d then { s.dev d with busy := false, cur := none, queue := rest } else s.dev y,
          now := t, pending := ps,
          log := s.log ++ [(t, .phyTxEnd d f), (t, .sniffer d p), (t, .promiscSniffer d p)] })
          (d := d) (f := p) (dest := dest) (c := c) (src := src) (rs := rs) (b := b)
    refine ⟨[(t, .phyTxEnd d f), (t, .sniffer d p), (t, .promiscSniffer d p)] ++ m, ?_, fun x => ?_, fun x hc => ?_,
      fun x hx => ?_, ?_, fun y hy hn => by
        obtain rfl : d = y := by simpa using hy
        rw [hhq] at hn; cases hn⟩
    · simp only [h1]
      simp
    · by_cases hx : x = d
      · subst hx; simp [txState]
      · simp [txState, hx]
    · by_cases hx : x = d
      · subst hx; simpa [txState] using (by simpa using hchan : (s.dev x).chan = some c) ▸ rfl
      · simpa [txState, hx] using hc
    · have hx : ¬ d = x := fun hh => hx (by rw [hh])
      have hx' : ¬ x = d := fun hh => hx hh.symm
      refine .same (by simp [txState, hx']) ((h8 x hx').trans (htx x hx')) (.append
        ⟨rfl, rfl, by simp [ended, endedEv, hx], by simp [phases, phaseEv, hx]⟩ (h6 x hx'))
    · intro d' hd
      obtain rfl : d = d' := by simpa using hd
      unfold accepted begun ended phases at *
      refine .next f p hb (by simp [txState]) hcur (by simp [txState]) (by simpa [txState] using hq) (h7.trans htd) ?_ ?_ ?_ ?_
      · simp [accepted, acceptedEv, h2]
      · simp [begun, begunEv, h3]
      · simp [ended, endedEv, h4]
      · simp [phases, phaseEv, h5]

theorem moves_receive {E : Env} {s s' : Sys} {t : Time} {ps : List Pending} {d src : DevId} {f : Bytes} {rx : Power}
    (hp : s.pending = ⟨t, .receive d f src rx⟩ :: ps)
    (h : receive E { s with now := t, pending := ps } d f src rx = .ok s') : ∃ l, Moves s s' l none := by
  obtain ⟨l, hl, rfl⟩ := receive_ok h
  refine ⟨_, .quiet rfl (fun _ => ⟨rfl, rfl, rfl, rfl, rfl⟩) (fun _ h => h) (fun x => ?_) (fun x => ?_)⟩
  · unfold txcn
    rw [hp, txc_cons]; rfl
  · exact Neutral.append (l := [(t, Ev.recvCall d f src rx)]) ⟨rfl, rfl, rfl, rfl⟩ (Neutral.rxEvs _ hl)

/-- Every operation of Model/Net.lean. -/
theorem moves_step {E : Env} {s s' : Sys} {o : Op} (h : step E s o = .ok s') : ∃ l, Moves s s' l (toucher s o) := by
  cases o <;> simp only [step] at h
  case send => exact moves_send h
  case sendFrom => injection h with h; subst h; exact ⟨_, moves_emit fun _ => ⟨rfl, rfl, rfl, rfl⟩⟩
  case attach => exact moves_attach h
  case detach => exact moves_detach h
  case setAddress d a =>
    cases a with
    | other => cases h
    | mac m => injection h with h; subst h; exact ⟨_, moves_set rfl rfl rfl rfl rfl rfl rfl⟩
  case run =>
    unfold run at h
    split at h
    · injection h with h; subst h
      exact ⟨[], .quiet (by simp) (fun _ => ⟨rfl, rfl, rfl, rfl, rfl⟩) (fun _ h => h) (fun _ => rfl) (fun _ => ⟨rfl, rfl, rfl, rfl⟩)⟩
    · rename_i p ps hp
      obtain ⟨t, a⟩ := p
      cases a with
      | txComplete d dest =>
        have : toucher s .run = some d := by simp [toucher, hp]
        rw [this]
        exact moves_complete hp h
      | receive d f src rx =>
        have : toucher s .run = none := by simp [toucher, hp]
        rw [this]
        exact moves_receive hp h
  case wait dt =>
    split at h <;> injection h with h <;> subst h <;>
      exact ⟨[], .quiet (by simp) (fun _ => ⟨rfl, rfl, rfl, rfl, rfl⟩) (fun _ h => h) (fun _ => rfl) (fun _ => ⟨rfl, rfl, rfl, rfl⟩)⟩
  all_goals
    injection h with h; subst h; exact ⟨_, moves_set rfl rfl rfl rfl rfl rfl rfl⟩

/-! ### The view of the devices -/

theorem devView_eq (S : QSys) (d : DevId) : (S.view.dev d).busy = (S.sys.dev d).busy ∧ (S.view.dev d).cur = (S.sys.dev d).cur ∧
    (S.view.dev d).linkUp = (S.sys.dev d).linkUp ∧ (S.view.dev d).chan = (S.sys.dev d).chan := by
  simp only [QSys.view, QSys.devView]
  split <;> exact ⟨rfl, rfl, rfl, rfl⟩

theorem devView_some {S : QSys} {d : DevId} {q : QueueId} (h : S.own d = some q) :
    S.view.dev d = { S.sys.dev d with hasQueue := true, queue := S.store q, cap := S.cap q } := by
  simp [QSys.view, QSys.devView, h]

theorem devView_none {S : QSys} {d : DevId} (h : S.own d = none) :
    S.view.dev d = { S.sys.dev d with hasQueue := false, queue := [] } := by
  simp [QSys.view, QSys.devView, h]

theorem devView_hasQueue (S : QSys) (d : DevId) : (S.view.dev d).hasQueue = (S.own d).isSome := by
  cases h : S.own d with
  | none => rw [devView_none h]; rfl
  | some q => rw [devView_some h]; rfl

theorem toucher_view (S : QSys) (o : Op) : toucher S.view o = toucher S.sys o := by
  cases o <;> rfl

/-- One operation of Model/Net.lean on queue objects. -/
theorem stepQ_op {E : Env} {S S' : QSys} {o : Op} (h : stepQ E S (.op o) = .ok S') :
    ∃ s' l, step E S.view o = .ok s' ∧ S' = S.writeBack s' (toucher S.sys o) ∧ Moves S.view s' l (toucher S.sys o) := by
  simp only [stepQ] at h
  rw [Outcome.bind_eq_ok] at h
  obtain ⟨s', hs, h⟩ := h
  injection h with h
  obtain ⟨l, hl⟩ := moves_step hs
  rw [toucher_view] at hl
  exact ⟨s', l, hs, h.symm, hl⟩

theorem newLog_sys {S S' : QSys} {l : List (Time × Ev)} (h : S'.sys.log = S.sys.log ++ l) : newLog S.sys S'.sys = l := by
  simp [newLog, h]

/-- Entries of all devices with a property are those of the only device that has entries. -/
theorem proj_of_one {g : DevId → Ev → Option Bytes} {G : Ev → Option Bytes} {P : DevId → Prop} [DecidablePred P] {d : DevId}
    (hG : ∀ e f, G e = some f ↔ ∃ x, g x e = some f ∧ P x) {l : List (Time × Ev)}
    (hg : ∀ x, x ≠ d → proj (g x) l = []) : proj G l = if P d then proj (g d) l else [] := by
  induction l with
  | nil => simp [proj]
  | cons e l ih =>
    have h1 : ∀ x, x ≠ d → g x e.2 = none := by
      intro x hx
      have := hg x hx
      unfold proj at this
      rw [List.filterMap_cons] at this
      split at this
      · assumption
      · cases this
    have h2 : ∀ x, x ≠ d → proj (g x) l = [] := by
      intro x hx
      have := hg x hx
      unfold proj at this ⊢
      rwa [List.filterMap_cons, h1 x hx] at this
    have ih := ih h2
    unfold proj at ih ⊢
    rw [List.filterMap_cons, List.filterMap_cons, ih]
    cases hGe : G e.2 with
    | none =>
      by_cases hP : P d
      · cases hge : g d e.2 with
        | none => rfl
        | some f => rw [(hG _ f).mpr ⟨d, hge, hP⟩] at hGe; cases hGe
      · simp [hP]
    | some f =>
      obtain ⟨x, hx, hP⟩ := (hG _ f).mp hGe
      obtain rfl : x = d := by
        by_contra hne
        rw [h1 x hne] at hx; cases hx
      simp [hP, hx]

theorem acceptedInto_iff (S : QSys) (q : QueueId) (e : Ev) (f : Bytes) :
    acceptedIntoEv S q e = some f ↔ ∃ x, acceptedEv x e = some f ∧ S.own x = some q := by
  unfold acceptedIntoEv acceptedEv
  split
  · rename_i d _ _ _ f'
    constructor
    · intro h
      split at h
      · rename_i ho; exact ⟨d, by simpa using h, ho⟩
      · cases h
    · rintro ⟨x, h, ho⟩
      simp only at h
      split at h
      · rename_i hd; subst hd; simpa [ho] using h
      · cases h
  · rename_i hne
    constructor
    · intro h; cases h
    · rintro ⟨x, h, _⟩
      split at h
      · rename_i d a b c f' ; exact absurd rfl (hne d a b c f')
      · cases h

theorem begunFrom_iff (S : QSys) (q : QueueId) (e : Ev) (f : Bytes) :
    begunFromEv S q e = some f ↔ ∃ x, begunEv x e = some f ∧ S.own x = some q := by
  unfold begunFromEv begunEv
  split
  · rename_i d f'
    constructor
    · intro h
      split at h
      · rename_i ho; exact ⟨d, by simpa using h, ho⟩
      · cases h
    · rintro ⟨x, h, ho⟩
      simp only at h
      split at h
      · rename_i hd; subst hd; simpa [ho] using h
      · cases h
  · rename_i hne
    constructor
    · intro h; cases h
    · rintro ⟨x, h, _⟩
      split at h
      · rename_i d f' ; exact absurd rfl (hne d f')
      · cases h

/-- The queue of the device that had a turn. -/
theorem Turn.flow {s s' : Sys} {l : List (Time × Ev)} {d : DevId} (h : Turn s s' l d) :
    (s.dev d).queue ++ accepted d l = begun d l ++ (s'.dev d).queue := by
  cases h with
  | kept h => rw [h.log.1, h.log.2.1, h.queue]; simp
  | queued f b b' c q n la lb le lp => rw [la, lb, q]; simp
  | started f g b b' c q n la lb le lp => rw [la, lb, q]; rfl
  | finished f b b' c c' q q' n la lb le lp => rw [la, lb, q, q']
  | next f g b b' c c' q n la lb le lp => rw [la, lb, q]; simp

theorem flow_step {E : Env} {S S' : QSys} {o : QOp} (h : stepQ E S o = .ok S') (q : QueueId) :
    S.store q ++ wentIn S S' o q = cameOut S S' o q ++ S'.store q := by
  cases o with
  | setQueue d r => simp only [stepQ] at h; injection h with h; subst h; simp [wentIn, cameOut]
  | put r f =>
    simp only [stepQ] at h
    by_cases hr : r = q
    · subst hr
      split at h <;> injection h with h <;> subst h
      · rename_i hlt; simp [wentIn, cameOut, hlt]
      · rename_i hlt; simp [wentIn, cameOut, hlt]
    · have hq : ¬ q = r := fun hh => hr hh.symm
      split at h <;> injection h with h <;> subst h <;> simp [wentIn, cameOut, hr, hq]
  | take r =>
    simp only [stepQ] at h
    injection h with h; subst h
    by_cases hr : r = q
    · subst hr
      cases hs : S.store r <;> simp [wentIn, cameOut, hs]
    · have hq : ¬ q = r := fun hh => hr hh.symm
      simp [wentIn, cameOut, hr, hq]
  | op o =>
    obtain ⟨s', l, _, rfl, hm⟩ := stepQ_op h
    have hlog : newLog S.sys (S.writeBack s' (toucher S.sys o)).sys = l := newLog_sys hm.log
    simp only [wentIn, cameOut, hlog]
    cases ht : toucher S.sys o with
    | none =>
      rw [ht] at hm
      rw [proj_of_one (d := 0) (acceptedInto_iff S q) fun x _ => (hm.others x (by simp)).log.1,
        proj_of_one (d := 0) (begunFrom_iff S q) fun x _ => (hm.others x (by simp)).log.2.1]
      have h0 := (hm.others 0 (by simp)).log
      have h1 : proj (acceptedEv 0) l = [] := h0.1
      have h2 : proj (begunEv 0) l = [] := h0.2.1
      simp [h1, h2, QSys.writeBack]
    | some d =>
      rw [ht] at hm
      have hne : ∀ x, x ≠ d → some d ≠ some x := by
        intro x hx hh; injection hh with hh; exact hx hh.symm
      rw [proj_of_one (acceptedInto_iff S q) fun x hx => (hm.others x (hne x hx)).log.1,
        proj_of_one (begunFrom_iff S q) fun x hx => (hm.others x (hne x hx)).log.2.1]
      by_cases ho : S.own d = some q
      · have hf := (hm.own d rfl).flow
        rw [devView_some ho] at hf
        simp only [ho, if_true, QSys.writeBack]
        exact hf
      · simp only [ho, if_false, QSys.writeBack, List.append_nil, List.nil_append]
        cases hr : S.own d with
        | none => rfl
        | some r =>
          have : ¬ q = r := by rintro rfl; exact ho hr
          simp [this]

theorem passes_exec {E : Env} {S S' : QSys} {ops : List QOp} (h : execQ E S ops = .ok S') :
    ∃ l, Passes E S l S' ∧ l.map (fun x => x.2.1) = ops := by
  induction ops generalizing S with
  | nil => injection h with h; subst h; exact ⟨[], .nil _, rfl⟩
  | cons o ops ih =>
    simp only [execQ] at h
    rw [Outcome.bind_eq_ok] at h
    obtain ⟨S1, h1, h2⟩ := h
    obtain ⟨l, hl, hm⟩ := ih h2
    exact ⟨_, .cons h1 hl, by simp [hm]⟩

theorem exec_passes {E : Env} {S S' : QSys} {l : List (QSys × QOp × QSys)} (h : Passes E S l S') :
    execQ E S (l.map fun x => x.2.1) = .ok S' := by
  induction h with
  | nil => rfl
  | cons h _ ih => simp only [List.map_cons, execQ, h, Outcome.ok_bind, ih]

theorem flow_passes {E : Env} {S S' : QSys} {l : List (QSys × QOp × QSys)} (h : Passes E S l S') (q : QueueId) :
    S.store q ++ allIn q l = allOut q l ++ S'.store q := by
  induction h with
  | nil => simp [allIn, allOut]
  | cons h _ ih =>
    simp only [allIn, allOut, List.flatMap_cons] at ih ⊢
    rw [← List.append_assoc, flow_step h q, List.append_assoc, ih, List.append_assoc]

/-! ### The transmitters -/

/-- What holds of every transmitter whatever is in the queues. -/
structure TxInv (s : Sys) (d : DevId) : Prop where
  ready : (s.dev d).busy = false → (s.dev d).cur = none ∧ txcn d s.pending = 0
  busy : (s.dev d).busy = true → (s.dev d).cur.isSome = true ∧ txcn d s.pending = 1
  chan : (s.dev d).linkUp = true ∨ (s.dev d).busy = true → (s.dev d).chan.isSome = true
  begun : begun d s.log = ended d s.log ++ (s.dev d).cur.toList
  phases : phases d s.log = (ended d s.log).flatMap (fun f => [.start f, .stop f]) ++ ((s.dev d).cur.map Phase.start).toList

theorem TxInv.kept {s s' : Sys} {l : List (Time × Ev)} {d : DevId} (h : TxInv s d) (hlog : s'.log = s.log ++ l)
    (hc : ((s.dev d).linkUp = true ∨ (s.dev d).busy = true → (s.dev d).chan.isSome = true) →
    ((s'.dev d).linkUp = true ∨ (s'.dev d).busy = true → (s'.dev d).chan.isSome = true)) (hk : Untouched s s' l d) : TxInv s' d := by
  obtain ⟨_, n2, n3, n4⟩ := hk.log
  have e1 : Spec.begun d s'.log = Spec.begun d s.log := by
    unfold Spec.begun at *; rw [hlog, proj_append, n2, List.append_nil]
  have e2 : Spec.ended d s'.log = Spec.ended d s.log := by
    unfold Spec.ended at *; rw [hlog, proj_append, n3, List.append_nil]
  have e3 : Spec.phases d s'.log = Spec.phases d s.log := by
    unfold Spec.phases at *; rw [hlog, proj_append, n4, List.append_nil]
  refine ⟨?_, ?_, hc h.chan, ?_, ?_⟩
  · rw [hk.busy, hk.cur, hk.pend]; exact h.ready
  · rw [hk.busy, hk.cur, hk.pend]; exact h.busy
  · rw [e1, e2, hk.cur]; exact h.begun
  · rw [e3, e2, hk.cur]; exact h.phases

theorem TxInv.turn {s s' : Sys} {l : List (Time × Ev)} {d : DevId} (h : TxInv s d) (hlog : s'.log = s.log ++ l)
    (hc : ((s.dev d).linkUp = true ∨ (s.dev d).busy = true → (s.dev d).chan.isSome = true) →
    ((s'.dev d).linkUp = true ∨ (s'.dev d).busy = true → (s'.dev d).chan.isSome = true)) (hk : Turn s s' l d) : TxInv s' d := by
  have hb := h.begun
  have hph := h.phases
  unfold Spec.begun Spec.ended at hb
  unfold Spec.phases Spec.ended at hph
  cases hk with
  | kept hk => exact h.kept hlog hc hk
  | queued f b b' c q n la lb le lp =>
    obtain ⟨i1, i2⟩ := h.busy b
    unfold Spec.begun at lb; unfold Spec.ended at le; unfold Spec.phases at lp
    refine ⟨by simp [b'], fun _ => ⟨by rw [c]; exact i1, by rw [n]; exact i2⟩, hc h.chan, ?_, ?_⟩
    · simp only [Spec.begun, Spec.ended, hlog, proj_append, lb, le, List.append_nil, c]; exact hb
    · simp only [Spec.phases, Spec.ended, hlog, proj_append, lp, le, List.append_nil, c]; exact hph
  | started f g b b' c q n la lb le lp =>
    obtain ⟨i1, i2⟩ := h.ready b
    unfold Spec.begun at lb; unfold Spec.ended at le; unfold Spec.phases at lp
    rw [i1] at hb hph
    refine ⟨by simp [b'], fun _ => ⟨by rw [c]; rfl, by rw [n, i2]⟩, hc h.chan, ?_, ?_⟩
    · simp only [Spec.begun, Spec.ended, hlog, proj_append, lb, le, List.append_nil, c, hb]; simp
    · simp only [Spec.phases, Spec.ended, hlog, proj_append, lp, le, List.append_nil, c, hph]; simp
  | finished f b b' c c' q q' n la lb le lp =>
    obtain ⟨i1, i2⟩ := h.busy b
    unfold Spec.begun at lb; unfold Spec.ended at le; unfold Spec.phases at lp
    rw [c] at hb hph
    refine ⟨fun _ => ⟨c', by omega⟩, by simp [b'], hc h.chan, ?_, ?_⟩
    · simp only [Spec.begun, Spec.ended, hlog, proj_append, lb, le, c', hb]; simp
    · simp only [Spec.phases, Spec.ended, hlog, proj_append, lp, le, c', hph]; simp
  | next f g b b' c c' q n la lb le lp =>
    obtain ⟨i1, i2⟩ := h.busy b
    unfold Spec.begun at lb; unfold Spec.ended at le; unfold Spec.phases at lp
    rw [c] at hb hph
    refine ⟨by simp [b'], fun _ => ⟨by rw [c']; rfl, by rw [n]; exact i2⟩, hc h.chan, ?_, ?_⟩
    · simp only [Spec.begun, Spec.ended, hlog, proj_append, lb, le, c', hb]; simp
    · simp only [Spec.phases, Spec.ended, hlog, proj_append, lp, le, c', hph]; simp

theorem Moves.txInv {s s' : Sys} {l : List (Time × Ev)} {touch : Option DevId} (hm : Moves s s' l touch) {d : DevId}
    (h : TxInv s d) : TxInv s' d := by
  by_cases ht : touch = some d
  · exact h.turn hm.log (hm.chan d) (hm.own d ht)
  · exact h.kept hm.log (hm.chan d) (hm.others d ht)

theorem txInv_view {S : QSys} {d : DevId} : TxInv S.view d ↔ TxInv S.sys d := by
  obtain ⟨h1, h2, h3, h4⟩ := devView_eq S d
  constructor
  · rintro ⟨a, b, c, e, f⟩
    rw [h1, h2] at a b; rw [h1, h3, h4] at c; rw [h2] at e f
    exact ⟨a, b, c, e, f⟩
  · rintro ⟨a, b, c, e, f⟩
    rw [← h1, ← h2] at a b; rw [← h1, ← h3, ← h4] at c; rw [← h2] at e f
    exact ⟨a, b, c, e, f⟩

theorem txInv_stepQ {E : Env} {S S' : QSys} {o : QOp} (h : stepQ E S o = .ok S') {d : DevId} (hi : TxInv S.sys d) :
    TxInv S'.sys d := by
  cases o with
  | op o =>
    obtain ⟨s', l, _, rfl, hm⟩ := stepQ_op h
    exact hm.txInv (txInv_view.mpr hi)
  | setQueue d r => simp only [stepQ] at h; injection h with h; subst h; exact hi
  | put r f => simp only [stepQ] at h; split at h <;> injection h with h <;> subst h <;> exact hi
  | take r => simp only [stepQ] at h; injection h with h; subst h; exact hi

theorem txInv_initial {s : Sys} (h : Initial s) (d : DevId) : TxInv s d := by
  obtain ⟨h1, h2, h3, h4, h5⟩ := h.idle d
  refine ⟨fun _ => ⟨h2, by simp [h.pending, txcn, txc]⟩, by simp [h1], by simp [h1, h4], ?_, ?_⟩
  · simp [Spec.begun, Spec.ended, h.log, h2, proj]
  · simp [Spec.phases, Spec.ended, h.log, h2, proj]

theorem txInv_execQ {E : Env} {S S' : QSys} {ops : List QOp} (h : execQ E S ops = .ok S') {d : DevId}
    (hi : TxInv S.sys d) : TxInv S'.sys d := by
  induction ops generalizing S with
  | nil => injection h with h; subst h; exact hi
  | cons o ops ih =>
    simp only [execQ] at h
    rw [Outcome.bind_eq_ok] at h
    obtain ⟨S1, h1, h2⟩ := h
    exact ih h2 (txInv_stepQ h1 hi)

theorem execQ_fail {E : Env} {S : QSys} {ops : List QOp} {e : Fault} (h : execQ E S ops = .fail e) :
    ∃ pre o post S1, ops = pre ++ o :: post ∧ execQ E S pre = .ok S1 ∧ stepQ E S1 o = .fail e := by
  induction ops generalizing S with
  | nil => cases h
  | cons o ops ih =>
    simp only [execQ] at h
    rw [Outcome.bind_eq_fail] at h
    rcases h with h | ⟨S1, h1, h2⟩
    · exact ⟨[], o, ops, S, rfl, rfl, h⟩
    · obtain ⟨pre, o', post, S2, rfl, h3, h4⟩ := ih h2
      exact ⟨o :: pre, o', post, S2, rfl, by simp [execQ, h1, h3], h4⟩

/-- The faults of one operation, whatever is in the queues. -/
theorem step_fail_tx {E : Env} {s : Sys} {op : Op} {e : Fault} (hinv : ∀ x, TxInv s x) (h : step E s op = .fail e) :
    e ≠ .txNotReady ∧ e ≠ .txNotBusy ∧ e ≠ .noCurrentPacket ∧ e ≠ .nullChannel ∧
      (e = .nullQueue → ∃ d, toucher s op = some d ∧ (s.dev d).hasQueue = false) := by
  cases op with
  | send d p dest proto =>
    obtain ⟨hl, h⟩ := send_fail h
    rcases h with h | h | h | h | h
    · simp [h.1]
    · simpa [h.1, toucher] using h.2
    · have := (hinv d).chan (Or.inl hl); simp [h.2] at this
    · simp [h.1]
    · simp [h.1]
  | attach d c =>
    simp only [step, attach] at h
    split at h
    · cases h
    · split at h
      · injection h with h; simp [← h]
      · split at h <;> cases h
  | detach c slot =>
    simp only [step, detach] at h
    split at h
    · cases h
    · split at h
      · injection h with h; simp [← h]
      · cases h
  | setAddress d a =>
    cases a with
    | other => injection h with h; simp [← h]
    | mac m => cases h
  | run =>
    simp only [step, run] at h
    split at h
    · cases h
    · rename_i p ps hp
      obtain ⟨t, a⟩ := p
      cases a with
      | receive d f src rx =>
        rcases receive_fail h with h | h
        · rcases decode_fail h with h | h | h <;> simp [h]
        · simp [h.1]
      | txComplete d dest =>
        have hbusy : (s.dev d).busy = true := by
          by_contra hb
          have hb' : (s.dev d).busy = false := by simpa using hb
          have := ((hinv d).ready hb').2
          unfold txcn at this
          rw [hp, txc_cons] at this
          simp at this
        rcases transmitComplete_fail h with h | h | h | h | h | h | h
        · simp [hbusy] at h
        · have h1 := ((hinv d).busy hbusy).1
          have h2 := h.2
          simp only at h2
          simp [h2] at h1
        · exact ⟨by simp [h.1], by simp [h.1], by simp [h.1], by simp [h.1], fun _ => ⟨d, by simp [toucher, hp], h.2⟩⟩
        · have := (hinv d).chan (Or.inr hbusy)
          simp only at h
          simp [h.2] at this
        · simp [h.1]
        · simp [h.1]
        · simp [h.1]
  | wait dt =>
    simp only [step] at h
    split at h <;> cases h
  | _ => cases h

theorem stepQ_op_fail {E : Env} {S : QSys} {o : QOp} {e : Fault} (h : stepQ E S o = .fail e) :
    ∃ p, o = .op p ∧ step E S.view p = .fail e := by
  cases o with
  | op p =>
    refine ⟨p, rfl, ?_⟩
    simp only [stepQ] at h
    rw [Outcome.bind_eq_fail] at h
    rcases h with h | ⟨_, _, h⟩
    · exact h
    · cases h
  | setQueue d r => cases h
  | put r f => simp only [stepQ] at h; split at h <;> cases h
  | take r => cases h

/-- An idle transmitter without a pending completion is not started by an event. -/
theorem not_toucher_idle {s : Sys} {d : DevId} (hn : txcn d s.pending = 0) : toucher s .run ≠ some d := by
  intro ht
  simp only [toucher] at ht
  split at ht
  · rename_i t d' dest ps hp
    injection ht with ht
    subst ht
    unfold txcn at hn
    rw [hp, txc_cons] at hn
    simp at hn
  · cases ht

/-- Operations without `Send` on an idle device leave it idle. -/
theorem idle_stepQ {E : Env} {S S' : QSys} {o : QOp} {d : DevId} (h : stepQ E S o = .ok S')
    (hs : ∀ p dest proto, o ≠ .op (.send d p dest proto)) (hb : (S.sys.dev d).busy = false)
    (hn : txcn d S.sys.pending = 0) :
    (S'.sys.dev d).busy = false ∧ txcn d S'.sys.pending = 0 ∧ begun d S'.sys.log = begun d S.sys.log := by
  cases o with
  | op o =>
    obtain ⟨s', l, _, rfl, hm⟩ := stepQ_op h
    have ht : toucher S.sys o ≠ some d := by
      cases o with
      | send d' p dest proto =>
        intro hh
        injection hh with hh
        subst hh
        exact hs _ _ _ rfl
      | run => exact not_toucher_idle hn
      | _ => intro hh; cases hh
    have hk := hm.others d ht
    refine ⟨hk.busy.trans ((devView_eq S d).1.trans hb), hk.pend.trans hn, ?_⟩
    have hl : s'.log = S.sys.log ++ l := hm.log
    have h2 := hk.log.2.1
    simp only [QSys.writeBack]
    unfold begun at *
    rw [hl, proj_append, h2, List.append_nil]
  | setQueue d r => simp only [stepQ] at h; injection h with h; subst h; exact ⟨hb, hn, rfl⟩
  | put r f => simp only [stepQ] at h; split at h <;> injection h with h <;> subst h <;> exact ⟨hb, hn, rfl⟩
  | take r => simp only [stepQ] at h; injection h with h; subst h; exact ⟨hb, hn, rfl⟩

theorem own_stepQ {E : Env} {S S' : QSys} {o : Op} (h : stepQ E S (.op o) = .ok S') : S'.own = S.own ∧ S'.cap = S.cap := by
  obtain ⟨s', l, _, rfl, hm⟩ := stepQ_op h
  exact ⟨rfl, rfl⟩

/-- Without sharing, the view after an operation is the state of Model/Net.lean after it. -/
theorem view_writeBack {E : Env} {S : QSys} {s' : Sys} {o : Op} (hu : OneEach S) (h : step E S.view o = .ok s') :
    (S.writeBack s' (toucher S.sys o)).view = s' := by
  obtain ⟨l, hm⟩ := moves_step h
  rw [toucher_view] at hm
  have hdev : (S.writeBack s' (toucher S.sys o)).devView = s'.dev := by
    funext x
    have hc := hm.conf x
    cases ho : S.own x with
    | none =>
      have hk : Untouched S.view s' l x := by
        by_cases ht : toucher S.sys o = some x
        · exact hm.noQueue x ht (by rw [devView_none ho])
        · exact hm.others x ht
      have hq := hk.queue
      rw [devView_none ho] at hc hq
      have ho' : (S.writeBack s' (toucher S.sys o)).own x = none := ho
      simp only [QSys.devView, ho']
      simp only at hc hq
      change { s'.dev x with hasQueue := false, queue := [] } = _
      rw [← hc.1, ← hq]
    | some q =>
      have ho' : (S.writeBack s' (toucher S.sys o)).own x = some q := ho
      have hq : (S.writeBack s' (toucher S.sys o)).store q = (s'.dev x).queue := by
        by_cases ht : toucher S.sys o = some x
        · simp [QSys.writeBack, ht, ho]
        · have hk := (hm.others x ht).queue
          rw [devView_some ho] at hk
          rw [hk]
          cases ht' : toucher S.sys o with
          | none => rfl
          | some y =>
            cases hoy : S.own y with
            | none => simp [QSys.writeBack, hoy]
            | some r =>
              have : ¬ q = r := by
                rintro rfl
                exact ht (by rw [ht', hu x y _ ho hoy])
              simp [QSys.writeBack, hoy, this]
      simp only [QSys.devView, ho']
      rw [hq]
      rw [devView_some ho] at hc
      simp only at hc
      change { s'.dev x with hasQueue := true, queue := (s'.dev x).queue, cap := S.cap q } = _
      rw [← hc.1, ← hc.2]
  simp only [QSys.view, hdev]
  rfl

end Verif
