import Verif.Lemmas.NetStep
/-! The device invariant and its preservation by every operation. -/

namespace Verif
open Spec

/-- Pending completions of a device. -/
def txc (d : DevId) (ps : List Pending) : List (Time × Addr) :=
  ps.filterMap fun p => match p.act with
    | .txComplete d' dest => if d' = d then some (p.time, dest) else none
    | _ => none

theorem filterMap_insertPending_empty {α : Type} {g : Pending → Option α} {p : Pending} {x : α}
    (h : g p = some x) {l : List Pending} (hl : l.filterMap g = []) :
    (insertPending p l).filterMap g = [x] := by
  induction l with
  | nil => simp [insertPending, h]
  | cons a l ih =>
    rw [List.filterMap_cons] at hl
    split at hl
    · rename_i ha
      simp only [insertPending]
      split
      · simp [h, ha, hl]
      · simp [ha, ih hl]
    · cases hl

theorem txc_insert_self {d : DevId} {ps : List Pending} (t : Time) (dest : Addr) (h : txc d ps = []) :
    txc d (insertPending ⟨t, .txComplete d dest⟩ ps) = [(t, dest)] :=
  filterMap_insertPending_empty (by simp) h

theorem txc_insert_other {d d' : DevId} (hd : d' ≠ d) (ps : List Pending) (t : Time) (dest : Addr) :
    txc d (insertPending ⟨t, .txComplete d' dest⟩ ps) = txc d ps :=
  filterMap_insertPending_none (by simp [hd]) ps

theorem txc_insertAll_recv (d : DevId) (ps : List Pending) (now : Time) (f : Bytes) (src : DevId) (rs : List Recv) :
    txc d (insertAll (rs.map (Recv.pend now f src)) ps) = txc d ps := by
  apply filterMap_insertAll_none
  intro p hp
  obtain ⟨r, _, rfl⟩ := List.mem_map.mp hp
  rfl

/-- Log invariant of a device, given its current packet and queue. -/
structure LogInv (d : DevId) (log : List (Time × Ev)) (cur : Option Bytes) (queue : List Bytes) : Prop where
  acc : accepted d log = begun d log ++ queue
  beg : begun d log = ended d log ++ cur.toList
  phase : phases d log = (ended d log).flatMap (fun f => [.start f, .stop f]) ++ (cur.map Phase.start).toList

/-- Device invariant. -/
structure DevInv (s : Sys) (d : DevId) : Prop where
  ready : (s.dev d).busy = false → (s.dev d).cur = none ∧ (s.dev d).queue = [] ∧ txc d s.pending = []
  busy : (s.dev d).busy = true → ∃ f t dest, (s.dev d).cur = some f ∧ txc d s.pending = [(t, dest)]
  chan : (s.dev d).linkUp = true ∨ (s.dev d).busy = true → (s.dev d).chan.isSome = true
  cap : (s.dev d).queue.length ≤ (s.dev d).cap
  log : LogInv d s.log (s.dev d).cur (s.dev d).queue

theorem devInv_initial {s : Sys} (h : Initial s) (d : DevId) : DevInv s d := by
  obtain ⟨h1, h2, h3, h4, h5⟩ := h.idle d
  refine ⟨fun _ => ⟨h2, h3, by rw [h.pending]; rfl⟩, by simp [h1], by simp [h1, h4], by simp [h3], ?_⟩
  rw [h.log, h2, h3]
  exact ⟨rfl, rfl, rfl⟩

/-! ### Log invariants under appended entries -/

/-- Entries irrelevant for the log invariant of device `d`. -/
def Neutral (d : DevId) (l : List (Time × Ev)) : Prop :=
  accepted d l = [] ∧ begun d l = [] ∧ ended d l = [] ∧ phases d l = []

theorem LogInv.append_neutral {d : DevId} {log l : List (Time × Ev)} {cur : Option Bytes} {q : List Bytes}
    (h : LogInv d log cur q) (hl : Neutral d l) : LogInv d (log ++ l) cur q := by
  obtain ⟨a, b, c⟩ := h
  obtain ⟨h1, h2, h3, h4⟩ := hl
  unfold accepted begun ended phases at *
  constructor <;> simp only [accepted, begun, ended, phases, proj_append, h1, h2, h3, h4, List.append_nil, a, b, c]

theorem Neutral.entries (d : DevId) (now : Time) (c : ChanId) (f : Bytes) (src : DevId) (t : Time)
    (rs : List Recv) : Neutral d (rs.map (Recv.entry now c f src t)) := by
  refine ⟨?_, ?_, ?_, ?_⟩ <;> apply proj_entries <;> intros <;> rfl

theorem Neutral.append {d : DevId} {l m : List (Time × Ev)} (h1 : Neutral d l) (h2 : Neutral d m) :
    Neutral d (l ++ m) := by
  obtain ⟨a1, b1, c1, d1⟩ := h1
  obtain ⟨a2, b2, c2, d2⟩ := h2
  unfold accepted begun ended phases at *
  refine ⟨?_, ?_, ?_, ?_⟩ <;> simp only [accepted, begun, ended, phases, proj_append, *, List.append_nil]

theorem Neutral.rxEvs {d d' : DevId} (now : Time) {l : List Ev} (hl : ∀ e ∈ l, RxEv d' e) :
    Neutral d (l.map (fun e => (now, e))) := by
  refine ⟨?_, ?_, ?_, ?_⟩ <;> refine proj_rxEvs (d := d') ?_ now hl <;> intro e he <;> cases e <;>
    first | rfl | (exfalso; exact he)

/-- The tail of the log written by a transmission, for the sending device. -/
theorem LogInv.start {d : DevId} {log : List (Time × Ev)} {q : List Bytes} {f : Bytes} {now : Time} {dest : Addr}
    {tail : List (Time × Ev)} (hacc : accepted d log = begun d log ++ f :: q)
    (hbeg : begun d log = ended d log)
    (hph : phases d log = (ended d log).flatMap (fun f => [.start f, .stop f]))
    (ht : Neutral d tail) :
    LogInv d (log ++ ([(now, .phyTxBegin d f), (now, .onAir d f dest)] ++ tail)) (some f) q := by
  obtain ⟨h1, h2, h3, h4⟩ := ht
  unfold accepted begun ended phases at *
  constructor <;> simp [accepted, begun, ended, phases, acceptedEv, begunEv, endedEv, phaseEv, h1, h2, h3, h4, hacc, hbeg, hph]

theorem Neutral.tx_other {d d' : DevId} (hd : d' ≠ d) {f : Bytes} {now : Time} {dest : Addr}
    {tail : List (Time × Ev)} (ht : Neutral d tail) :
    Neutral d ([(now, .phyTxBegin d' f), (now, .onAir d' f dest)] ++ tail) := by
  refine Neutral.append ?_ ht
  refine ⟨?_, ?_, ?_, ?_⟩ <;> simp [accepted, begun, ended, phases, acceptedEv, begunEv, endedEv, phaseEv, hd]

theorem neutral_drop (d d' : DevId) (f : Bytes) (now : Time) (b : Bool) :
    Neutral d (if b then [] else [(now, Ev.phyTxDrop d' f)]) := by
  cases b <;> exact ⟨rfl, rfl, rfl, rfl⟩

/-- What `transmitStart` needs and gives for the sending device: the accepted frames still miss the
`sendRet` entry when called from `send`, hence the parameter `extra`. -/
theorem devInv_txState_self {E : Env} {s : Sys} {d : DevId} {f : Bytes} {dest : Addr} {c : ChanId} {src : DevId}
    {rs : List Recv} {b : Bool} {l2 : List (Time × Ev)}
    (hchan : (s.dev d).chan = some c) (htxc : txc d s.pending = [])
    (hcap : (s.dev d).queue.length ≤ (s.dev d).cap)
    (hacc : accepted d s.log ++ accepted d l2 = begun d s.log ++ f :: (s.dev d).queue)
    (hbeg : begun d s.log = ended d s.log)
    (hph : phases d s.log = (ended d s.log).flatMap (fun f => [.start f, .stop f]))
    (hl2 : begun d l2 = [] ∧ ended d l2 = [] ∧ phases d l2 = []) :
    DevInv { txState E s d f dest c src rs b with log := (txState E s d f dest c src rs b).log ++ l2 } d := by
  have hN : Neutral d (rs.map (Recv.entry s.now c f src (E.txTime (s.dev d).rate f.length))
      ++ if b then [] else [(s.now, Ev.phyTxDrop d f)]) :=
    (Neutral.entries _ _ _ _ _ _ _).append (neutral_drop _ _ _ _ _)
  refine ⟨by simp [txState], ?_, by simp [txState, hchan], by simpa [txState] using hcap, ?_⟩
  · intro _
    refine ⟨f, s.now + (E.txTime (s.dev d).rate f.length + (s.dev d).gap), dest, by simp [txState], ?_⟩
    simp only [txState]
    rw [txc_insertAll_recv, txc_insert_self _ _ htxc]
  · simp only [txState, if_true]
    obtain ⟨h1, h2, h3⟩ := hl2
    generalize (rs.map (Recv.entry s.now c f src (E.txTime (s.dev d).rate f.length))
      ++ if b then [] else [(s.now, Ev.phyTxDrop d f)]) = tail at hN ⊢
    obtain ⟨n1, n2, n3, n4⟩ := hN
    unfold accepted begun ended phases at *
    constructor
    · simp [accepted, begun, n1, n2, h1, acceptedEv, begunEv, hacc]
    · simp [begun, ended, n2, n3, h1, h2, begunEv, endedEv, hbeg]
    · simp [phases, ended, n3, n4, h2, h3, phaseEv, endedEv, hph]

theorem devInv_txState_other {E : Env} {s : Sys} {d d' : DevId} (hd : d' ≠ d) {f : Bytes} {dest : Addr} {c : ChanId}
    {src : DevId} {rs : List Recv} {b : Bool} {l2 : List (Time × Ev)} (h : DevInv s d) (hl2 : Neutral d l2) :
    DevInv { txState E s d' f dest c src rs b with log := (txState E s d' f dest c src rs b).log ++ l2 } d := by
  have hd' : ¬ d = d' := fun hh => hd hh.symm
  have ht : txc d (txState E s d' f dest c src rs b).pending = txc d s.pending := by
    simp only [txState]
    rw [txc_insertAll_recv, txc_insert_other hd]
  have hN : Neutral d (rs.map (Recv.entry s.now c f src (E.txTime (s.dev d').rate f.length))
      ++ if b then [] else [(s.now, Ev.phyTxDrop d' f)]) :=
    (Neutral.entries _ _ _ _ _ _ _).append (neutral_drop _ _ _ _ _)
  have hv : (txState E s d' f dest c src rs b).dev d = s.dev d := by simp [txState, hd']
  refine ⟨?_, ?_, ?_, ?_, ?_⟩
  · simp only [hv, ht]; exact h.ready
  · simp only [hv, ht]; exact h.busy
  · simp only [hv]; exact h.chan
  · simp only [hv]; exact h.cap
  · simp only [hv]
    simp only [txState]
    exact (h.log.append_neutral (Neutral.tx_other hd hN)).append_neutral hl2

/-- The invariant only depends on these components. -/
theorem DevInv.congr {s s' : Sys} {d : DevId} (h : DevInv s d)
    (hb : (s'.dev d).busy = (s.dev d).busy) (hc : (s'.dev d).cur = (s.dev d).cur)
    (hq : (s'.dev d).queue = (s.dev d).queue) (hcap : (s'.dev d).cap = (s.dev d).cap)
    (hl : (s'.dev d).linkUp = true ∨ (s.dev d).busy = true → (s'.dev d).chan.isSome = true)
    (ht : txc d s'.pending = txc d s.pending)
    (hlog : ∃ l, s'.log = s.log ++ l ∧ Neutral d l) : DevInv s' d := by
  obtain ⟨l, hl1, hl2⟩ := hlog
  refine ⟨?_, ?_, ?_, ?_, ?_⟩
  · rw [hb, hc, hq, ht]; exact h.ready
  · rw [hb, hc, ht]; exact h.busy
  · rw [hb]; exact hl
  · rw [hq, hcap]; exact h.cap
  · rw [hl1, hc, hq]; exact h.log.append_neutral hl2

theorem DevInv.log_append {s : Sys} {d : DevId} (h : DevInv s d) {l : List (Time × Ev)} (hl : Neutral d l) :
    DevInv { s with log := s.log ++ l } d :=
  h.congr rfl rfl rfl rfl (h.chan) rfl ⟨l, rfl, hl⟩

theorem devInv_send {E : Env} {s s' : Sys} {d : DevId} {p : Bytes} {dest : Addr} {proto : UInt16}
    (hinv : ∀ x, DevInv s x) (h : send E s d p dest proto = .ok s') (x : DevId) : DevInv s' x := by
  rcases send_ok h with ⟨_, rfl⟩ | ⟨hlu, _, m, _, f, hf, hcase⟩
  · exact (hinv x).log_append ⟨rfl, rfl, rfl, rfl⟩
  · rcases hcase with ⟨_, rfl⟩ | ⟨hlen, hb, rfl⟩ | ⟨hlen, hb, g, rest, s3, hq, hts, rfl⟩
    · exact (hinv x).log_append ⟨rfl, rfl, rfl, rfl⟩
    · by_cases hx : x = d
      · subst hx
        obtain ⟨g, t, dst, hc, ht⟩ := (hinv x).busy hb
        obtain ⟨a1, a2, a3⟩ := (hinv x).log
        refine ⟨by simp [hb], fun _ => ⟨g, t, dst, by simpa using hc, ht⟩, by simpa using (hinv x).chan,
          by simp; omega, ?_⟩
        unfold accepted begun ended phases at *
        constructor
        · simp [accepted, begun, acceptedEv, begunEv, a1]
        · simpa [begun, ended, begunEv, endedEv] using a2
        · simpa [phases, ended, phaseEv, endedEv] using a3
      · have hx' : ¬ d = x := fun hh => hx hh.symm
        refine (hinv x).congr (by simp [hx]) (by simp [hx]) (by simp [hx]) (by simp [hx])
          (by simpa [hx] using (hinv x).chan) rfl ⟨_, rfl, ?_⟩
        exact ⟨by simp [accepted, acceptedEv, hx'], rfl, rfl, rfl⟩
    · obtain ⟨_, c, src, rs, b, hchan, _, _, rfl⟩ := transmitStart_ok hts
      obtain ⟨hcur, hqe, htx⟩ := (hinv d).ready hb
      rw [hqe] at hq
      simp only [List.nil_append, List.cons.injEq] at hq
      obtain ⟨rfl, rfl⟩ := hq
      by_cases hx : x = d
      · subst hx
        obtain ⟨a1, a2, a3⟩ := (hinv x).log
        rw [hcur] at a2 a3
        rw [hqe] at a1
        unfold accepted begun ended phases at *
        simp only [List.append_nil, Option.map_none, Option.toList_none] at a1 a2 a3
        refine devInv_txState_self hchan htx (by simp) ?_ ?_ ?_ ⟨rfl, rfl, rfl⟩
        · simp [accepted, begun, acceptedEv, begunEv, a1]
        · simpa [begun, ended, begunEv, endedEv] using a2
        · simpa [phases, ended, phaseEv, endedEv] using a3
      · have hx' : ¬ d = x := fun hh => hx hh.symm
        refine devInv_txState_other hx' ?_ ⟨by simp [accepted, acceptedEv, hx'], rfl, rfl, rfl⟩
        refine (hinv x).congr (by simp [hx]) (by simp [hx]) (by simp [hx]) (by simp [hx])
          (by simpa [hx] using (hinv x).chan) rfl ⟨_, rfl, rfl, rfl, rfl, rfl⟩

/-- State of the system while an event taken from the list is executed. -/
theorem txc_cons (d : DevId) (p : Pending) (ps : List Pending) :
    txc d (p :: ps) = (match p.act with
      | .txComplete d' dest => if d' = d then [(p.time, dest)] else []
      | _ => []) ++ txc d ps := by
  unfold txc
  rw [List.filterMap_cons]
  cases p.act with
  | receive => rfl
  | txComplete d' dest => by_cases h : d' = d <;> simp [h]

theorem devInv_complete {E : Env} {s s' : Sys} {t : Time} {ps : List Pending} {d : DevId} {dest : Addr}
    (hp : s.pending = ⟨t, .txComplete d dest⟩ :: ps)
    (hinv : ∀ x, DevInv s x)
    (h : transmitComplete E { s with now := t, pending := ps } d dest = .ok s') (x : DevId) : DevInv s' x := by
  obtain ⟨hb, _, f, hcur, hcase⟩ := transmitComplete_ok h
  simp only at hb hcur hcase
  have htd : txc d ps = [] := by
    obtain ⟨_, _, _, _, h2⟩ := (hinv d).busy hb
    rw [hp, txc_cons] at h2
    simp only [if_true, List.singleton_append, List.cons.injEq] at h2
    exact h2.2
  have htx : ∀ y, y ≠ d → txc y ps = txc y s.pending := by
    intro y hy
    rw [hp, txc_cons]
    have hy' : ¬ d = y := fun hh => hy hh.symm
    simp [hy']
  obtain ⟨a1, a2, a3⟩ := (hinv d).log
  rw [hcur] at a2 a3
  rcases hcase with ⟨hq, rfl⟩ | ⟨p, rest, hq, hts⟩
  · by_cases hx : x = d
    · subst hx
      rw [hq] at a1
      unfold accepted begun ended phases at *
      refine ⟨fun _ => ⟨by simp, by simp [hq], htd⟩, by simp, fun _ => by simpa using (hinv x).chan (Or.inr hb),
        by simp [hq], ?_⟩
      constructor
      · simpa [accepted, begun, acceptedEv, begunEv, hq] using a1
      · simpa [begun, ended, begunEv, endedEv] using a2
      · simp [phases, ended, phaseEv, endedEv, a3]
    · have hx' : ¬ d = x := fun hh => hx hh.symm
      refine (hinv x).congr (by simp [hx]) (by simp [hx]) (by simp [hx]) (by simp [hx])
          (by simpa [hx] using (hinv x).chan) (htx x hx) ⟨_, rfl, rfl, rfl, ?_, ?_⟩
      · simp [ended, endedEv, hx']
      · simp [phases, phaseEv, hx']
  · obtain ⟨_, c, src, rs, b, hchan, _, _, rfl⟩ := transmitStart_ok hts
    by_cases hx : x = d
    · subst hx
      rw [hq] at a1
      unfold accepted begun ended phases at *
      have := devInv_txState_self (E := E) (f := p) (dest := dest) (src := src) (rs := rs) (b := b) (l2 := [])
        hchan htd (by have := (hinv x).cap; rw [hq] at this; simp at this ⊢; omega)
        (by simp [accepted, begun, acceptedEv, begunEv, a1])
        (by simpa [begun, ended, begunEv, endedEv] using a2)
        (by simp [phases, ended, phaseEv, endedEv, a3]) ⟨rfl, rfl, rfl⟩
      simpa using this
    · have hx' : ¬ d = x := fun hh => hx hh.symm
      have := devInv_txState_other (E := E) (s := { s with
          dev := fun y => if y = d then { s.dev d with busy := false, cur := none, queue := rest } else s.dev y,
          now := t, pending := ps,
          log := s.log ++ [(t, .phyTxEnd d f), (t, .sniffer d p), (t, .promiscSniffer d p)] })
          hx' (f := p) (dest := dest) (c := c) (src := src) (rs := rs) (b := b) (l2 := [])
          ((hinv x).congr (by simp [hx]) (by simp [hx]) (by simp [hx]) (by simp [hx])
            (by simpa [hx] using (hinv x).chan) (htx x hx) ⟨_, rfl, rfl, rfl,
              by simp [ended, endedEv, hx'], by simp [phases, phaseEv, hx']⟩) ⟨rfl, rfl, rfl, rfl⟩
      simpa using this

theorem devInv_receive {E : Env} {s s' : Sys} {t : Time} {ps : List Pending} {d src : DevId} {f : Bytes} {rx : Power}
    (hp : s.pending = ⟨t, .receive d f src rx⟩ :: ps) (hinv : ∀ x, DevInv s x)
    (h : receive E { s with now := t, pending := ps } d f src rx = .ok s') (x : DevId) : DevInv s' x := by
  obtain ⟨l, hl, rfl⟩ := receive_ok h
  refine (hinv x).congr rfl rfl rfl rfl (hinv x).chan ?_ ⟨_, rfl, ?_⟩
  · rw [hp, txc_cons]; rfl
  · exact Neutral.append (l := [(t, Ev.recvCall d f src rx)]) ⟨rfl, rfl, rfl, rfl⟩ (Neutral.rxEvs _ hl)

theorem devInv_run {E : Env} {s s' : Sys} (hinv : ∀ x, DevInv s x) (h : run E s = .ok s') (x : DevId) :
    DevInv s' x := by
  unfold run at h
  split at h
  · injection h with h; subst h; exact hinv x
  · rename_i p ps hp
    obtain ⟨t, a⟩ := p
    cases a with
    | txComplete d dest => exact devInv_complete hp hinv h x
    | receive d f src rx => exact devInv_receive hp hinv h x

theorem devInv_attach {s s' : Sys} {d : DevId} {c : ChanId} (hinv : ∀ x, DevInv s x) (h : attach s d c = .ok s')
    (x : DevId) : DevInv s' x := by
  obtain ⟨g, t, _, rfl⟩ := attach_ok h
  by_cases hx : x = d
  · subst hx
    exact (hinv x).congr (by simp) (by simp) (by simp) (by simp) (by simp) rfl ⟨_, rfl, rfl, rfl, rfl, rfl⟩
  · exact (hinv x).congr (by simp [hx]) (by simp [hx]) (by simp [hx]) (by simp [hx])
      (by simpa [hx] using (hinv x).chan) rfl ⟨_, rfl, rfl, rfl, rfl, rfl⟩

theorem devInv_detach {s s' : Sys} {c : ChanId} {slot : Nat} (hinv : ∀ x, DevInv s x) (h : detach s c slot = .ok s')
    (x : DevId) : DevInv s' x := by
  obtain ⟨g, t, _, h⟩ := detach_ok h
  rcases h with ⟨d, _, _, rfl⟩ | ⟨_, rfl⟩
  · by_cases hx : x = d
    · subst hx
      refine (hinv x).congr (by simp) (by simp) (by simp) (by simp) ?_ rfl ⟨_, rfl, rfl, rfl, rfl, rfl⟩
      intro hh
      simp at hh
      simpa using (hinv x).chan (Or.inr hh)
    · exact (hinv x).congr (by simp [hx]) (by simp [hx]) (by simp [hx]) (by simp [hx])
        (by simpa [hx] using (hinv x).chan) rfl ⟨_, rfl, rfl, rfl, rfl, rfl⟩
  · exact (hinv x).congr rfl rfl rfl rfl (hinv x).chan rfl ⟨_, rfl, rfl, rfl, rfl, rfl⟩

/-- Setters of parameters that the invariant does not mention. -/
theorem devInv_set {s : Sys} {d : DevId} {v : Dev} (hinv : ∀ x, DevInv s x)
    (hb : v.busy = (s.dev d).busy) (hc : v.cur = (s.dev d).cur) (hq : v.queue = (s.dev d).queue)
    (hcap : v.cap = (s.dev d).cap) (hl : v.linkUp = (s.dev d).linkUp) (hch : v.chan = (s.dev d).chan)
    (x : DevId) : DevInv (s.setDev d v) x := by
  by_cases hx : x = d
  · subst hx
    refine (hinv x).congr (by simpa [Sys.setDev] using hb) (by simpa [Sys.setDev] using hc)
      (by simpa [Sys.setDev] using hq) (by simpa [Sys.setDev] using hcap) ?_ rfl ⟨[], by simp [Sys.setDev], rfl, rfl, rfl, rfl⟩
    simpa [Sys.setDev, hl, hch] using (hinv x).chan
  · exact (hinv x).congr (by simp [Sys.setDev, hx]) (by simp [Sys.setDev, hx]) (by simp [Sys.setDev, hx])
      (by simp [Sys.setDev, hx]) (by simpa [Sys.setDev, hx] using (hinv x).chan) rfl
      ⟨[], by simp [Sys.setDev], rfl, rfl, rfl, rfl⟩

theorem devInv_step {E : Env} {s s' : Sys} {op : Op} (hinv : ∀ x, DevInv s x) (h : step E s op = .ok s')
    (x : DevId) : DevInv s' x := by
  cases op with
  | send d p dest proto => exact devInv_send hinv h x
  | sendFrom d p src dest proto =>
    injection h with h; subst h
    exact (hinv x).log_append ⟨rfl, rfl, rfl, rfl⟩
  | attach d c => exact devInv_attach hinv h x
  | detach c slot => exact devInv_detach hinv h x
  | setAddress d a =>
    cases a with
    | other => cases h
    | mac m => injection h with h; subst h; apply devInv_set hinv <;> rfl
  | setSide => injection h with h; subst h; apply devInv_set hinv <;> rfl
  | setRate => injection h with h; subst h; apply devInv_set hinv <;> rfl
  | setGap => injection h with h; subst h; apply devInv_set hinv <;> rfl
  | setMtu => injection h with h; subst h; apply devInv_set hinv <;> rfl
  | setTxPower => injection h with h; subst h; apply devInv_set hinv <;> rfl
  | setRxThreshold => injection h with h; subst h; apply devInv_set hinv <;> rfl
  | setRxGain => injection h with h; subst h; apply devInv_set hinv <;> rfl
  | setRxLoss => injection h with h; subst h; apply devInv_set hinv <;> rfl
  | setPromisc => injection h with h; subst h; apply devInv_set hinv <;> rfl
  | run => exact devInv_run hinv h x
  | wait dt =>
    simp only [step] at h
    split at h <;> injection h with h <;> subst h
    · exact (hinv x).congr rfl rfl rfl rfl (hinv x).chan rfl ⟨[], by simp, rfl, rfl, rfl, rfl⟩
    · exact hinv x

theorem exec_append {E : Env} {s : Sys} {ops1 ops2 : List Op} :
    exec E s (ops1 ++ ops2) = (exec E s ops1 >>= fun s' => exec E s' ops2) := by
  induction ops1 generalizing s with
  | nil => rfl
  | cons op ops ih =>
    simp only [List.cons_append, exec]
    cases step E s op with
    | ok s1 => simp [ih]
    | fail f => simp

/-- Invariants are preserved along histories. -/
theorem exec_induct {E : Env} {P : Sys → Prop} (hstep : ∀ s s' op, P s → step E s op = .ok s' → P s')
    {s s' : Sys} {ops : List Op} (h0 : P s) (h : exec E s ops = .ok s') : P s' := by
  induction ops generalizing s with
  | nil => injection h with h; subst h; exact h0
  | cons op ops ih =>
    simp only [exec] at h
    rw [Outcome.bind_eq_ok] at h
    obtain ⟨s1, h1, h2⟩ := h
    exact ih (hstep _ _ _ h0 h1) h2

theorem exec_fail {E : Env} {s : Sys} {ops : List Op} {f : Fault} (h : exec E s ops = .fail f) :
    ∃ ops1 op ops2 s1, ops = ops1 ++ op :: ops2 ∧ exec E s ops1 = .ok s1 ∧ step E s1 op = .fail f := by
  induction ops generalizing s with
  | nil => cases h
  | cons op ops ih =>
    simp only [exec] at h
    rw [Outcome.bind_eq_fail] at h
    rcases h with h | ⟨s1, h1, h2⟩
    · exact ⟨[], op, ops, s, rfl, rfl, h⟩
    · obtain ⟨o1, o, o2, s2, rfl, h3, h4⟩ := ih h2
      exact ⟨op :: o1, o, o2, s2, rfl, by simp [exec, h1, h3], h4⟩

theorem devInv_exec {E : Env} {s s' : Sys} {ops : List Op} (h0 : Initial s) (h : exec E s ops = .ok s') (d : DevId) :
    DevInv s' d :=
  exec_induct (P := fun s => ∀ x, DevInv s x) (fun _ _ _ hP hs x => devInv_step hP hs x)
    (fun x => devInv_initial h0 x) h d

end Verif
