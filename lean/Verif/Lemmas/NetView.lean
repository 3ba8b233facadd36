import Mathlib.Tactic.ByContra
import Verif.Lemmas.NetFault
/-! What one operation does to one device, to the clock and to the log. -/

namespace Verif
open Spec

/-- Transmissions handed to the channel by `d`: frame and destination. -/
def airEv (d : DevId) : Ev → Option (Bytes × Addr)
  | .onAir d' f dest => if d' = d then some (f, dest) else none
  | _ => none

/-- Time, frame and destination. -/
def airs (d : DevId) (log : List (Time × Ev)) : List (Bytes × Addr) := proj (airEv d) log

/-- The log of `s'` extends that of `s` by these projections for device `d`. -/
structure LogStep (d : DevId) (s s' : Sys) (ph : List Phase) (air : List (Bytes × Addr)) (acc : List Bytes) : Prop where
  phase : phasesT d s'.log = phasesT d s.log ++ ph.map (fun p => (s'.now, p))
  air : airs d s'.log = airs d s.log ++ air
  acc : accepted d s'.log = accepted d s.log ++ acc

/-- The operation is a `Send` on `d` towards `dest` that produced frame `f`. -/
def SendsFrame (E : Env) (s : Sys) (op : Op) (d : DevId) (dest : Addr) (f : Bytes) : Prop :=
  ∃ p proto m, op = .send d p dest proto ∧ dest = .mac m ∧ f = addHeader E.fcs p (s.dev d).addr m proto

/-- The effect of one operation on one device. -/
inductive DevStep (E : Env) (s : Sys) (op : Op) (s' : Sys) (d : DevId) : Prop where
  | keep (acc : List Bytes) (hb : (s'.dev d).busy = (s.dev d).busy) (hc : (s'.dev d).cur = (s.dev d).cur)
      (ht : txc d s'.pending = txc d s.pending) (hacc : acc = [] ∨ ((s.dev d).busy = true ∧ ∃ dest f, acc = [f] ∧ SendsFrame E s op d dest f))
      (hq : (s'.dev d).queue = (s.dev d).queue ++ acc) (hl : LogStep d s s' [] [] acc)
  | start (f : Bytes) (dest : Addr) (hop : SendsFrame E s op d dest f) (hb : (s.dev d).busy = false) (hb' : (s'.dev d).busy = true)
      (hc : (s'.dev d).cur = some f) (hq : (s'.dev d).queue = [])
      (ht : txc d s'.pending = [(s'.now + (E.txTime (s.dev d).rate f.length + (s.dev d).gap), dest)])
      (hl : LogStep d s s' [.start f] [(f, dest)] [f])
  | stop (f : Bytes) (dest : Addr) (hb : (s.dev d).busy = true) (hb' : (s'.dev d).busy = false)
      (hc : (s.dev d).cur = some f) (hq : (s.dev d).queue = []) (hq' : (s'.dev d).queue = [])
      (ht : txc d s.pending = [(s'.now, dest)]) (hl : LogStep d s s' [.stop f] [] [])
  | next (f g : Bytes) (dest : Addr) (rest : List Bytes) (hb : (s.dev d).busy = true) (hb' : (s'.dev d).busy = true)
      (hc : (s.dev d).cur = some f) (hc' : (s'.dev d).cur = some g)
      (hq : (s.dev d).queue = g :: rest) (hq' : (s'.dev d).queue = rest)
      (ht : txc d s.pending = [(s'.now, dest)])
      (ht' : txc d s'.pending = [(s'.now + (E.txTime (s.dev d).rate g.length + (s.dev d).gap), dest)])
      (hl : LogStep d s s' [.stop f, .start g] [(g, dest)] [])

theorem LogStep.of_append {d : DevId} {s s' : Sys} {l : List (Time × Ev)} {ph : List Phase}
    {air : List (Bytes × Addr)} {acc : List Bytes} (h : s'.log = s.log ++ l)
    (h1 : phasesT d l = ph.map (fun p => (s'.now, p))) (h2 : airs d l = air) (h3 : accepted d l = acc) :
    LogStep d s s' ph air acc := by
  constructor
  · rw [h]; unfold phasesT at *; rw [projT_append, h1]
  · rw [h]; unfold airs at *; rw [proj_append, h2]
  · rw [h]; unfold accepted at *; rw [proj_append, h3]

/-- Entries that concern no device's transmissions. -/
def Silent (l : List (Time × Ev)) : Prop :=
  ∀ d, phasesT d l = [] ∧ airs d l = [] ∧ accepted d l = []

theorem Silent.entries (now : Time) (c : ChanId) (f : Bytes) (src : DevId) (t : Time)
    (rs : List Recv) : Silent (rs.map (Recv.entry now c f src t)) := by
  intro d
  refine ⟨?_, ?_, ?_⟩
  · apply projT_entries; intros; rfl
  · apply proj_entries; intros; rfl
  · apply proj_entries; intros; rfl

theorem Silent.rxEvs {d' : DevId} (now : Time) {l : List Ev} (hl : ∀ e ∈ l, RxEv d' e) :
    Silent (l.map (fun e => (now, e))) := by
  intro d
  refine ⟨?_, ?_, ?_⟩
  · refine projT_rxEvs (d := d') ?_ now hl; intro e he; cases e <;> first | rfl | (exfalso; exact he)
  · refine proj_rxEvs (d := d') ?_ now hl; intro e he; cases e <;> first | rfl | (exfalso; exact he)
  · refine proj_rxEvs (d := d') ?_ now hl; intro e he; cases e <;> first | rfl | (exfalso; exact he)

theorem Silent.append {l m : List (Time × Ev)} (h1 : Silent l) (h2 : Silent m) : Silent (l ++ m) := by
  intro d
  obtain ⟨a1, b1, c1⟩ := h1 d
  obtain ⟨a2, b2, c2⟩ := h2 d
  unfold phasesT airs accepted at *
  simp [a1, b1, c1, a2, b2, c2]

theorem silent_drop (d' : DevId) (f : Bytes) (now : Time) (b : Bool) :
    Silent (if b then [] else [(now, Ev.phyTxDrop d' f)]) := by
  cases b <;> exact fun _ => ⟨rfl, rfl, rfl⟩

theorem DevStep.quiet {E : Env} {s s' : Sys} {op : Op} {d : DevId} {l : List (Time × Ev)}
    (hb : (s'.dev d).busy = (s.dev d).busy) (hc : (s'.dev d).cur = (s.dev d).cur)
    (hq : (s'.dev d).queue = (s.dev d).queue) (ht : txc d s'.pending = txc d s.pending)
    (hlog : s'.log = s.log ++ l) (hl : phasesT d l = [] ∧ airs d l = [] ∧ accepted d l = []) :
    DevStep E s op s' d :=
  .keep [] hb hc ht (Or.inl rfl) (by simp [hq]) (LogStep.of_append hlog (by simpa using hl.1) hl.2.1 hl.2.2)

theorem devStep_set {E : Env} {s : Sys} {op : Op} {d : DevId} {v : Dev}
    (hb : v.busy = (s.dev d).busy) (hc : v.cur = (s.dev d).cur) (hq : v.queue = (s.dev d).queue)
    (x : DevId) : DevStep E s op (s.setDev d v) x := by
  by_cases hx : x = d
  · subst hx
    exact DevStep.quiet (l := []) (by simpa [Sys.setDev] using hb) (by simpa [Sys.setDev] using hc)
      (by simpa [Sys.setDev] using hq) rfl (by simp [Sys.setDev]) ⟨rfl, rfl, rfl⟩
  · exact DevStep.quiet (l := []) (by simp [Sys.setDev, hx]) (by simp [Sys.setDev, hx])
      (by simp [Sys.setDev, hx]) rfl (by simp [Sys.setDev]) ⟨rfl, rfl, rfl⟩

theorem devStep_send {E : Env} {s s' : Sys} {d : DevId} {p : Bytes} {dest : Addr} {proto : UInt16}
    (hinv : ∀ x, DevInv s x) (h : send E s d p dest proto = .ok s') (x : DevId) :
    DevStep E s (.send d p dest proto) s' x := by
  rcases send_ok h with ⟨_, rfl⟩ | ⟨hlu, _, m, hm, f, hf, hcase⟩
  · exact DevStep.quiet rfl rfl rfl rfl rfl ⟨rfl, rfl, rfl⟩
  · rcases hcase with ⟨_, rfl⟩ | ⟨hlen, hb, rfl⟩ | ⟨hlen, hb, g, rest, s3, hq, hts, rfl⟩
    · exact DevStep.quiet rfl rfl rfl rfl rfl ⟨rfl, rfl, rfl⟩
    · by_cases hx : x = d
      · subst hx
        refine DevStep.keep [f] (by simp) (by simp) rfl (Or.inr ⟨hb, dest, f, rfl, p, proto, m, rfl, hm, hf⟩) (by simp) (LogStep.of_append rfl rfl rfl ?_)
        simp [accepted, acceptedEv]
      · have hx' : ¬ d = x := fun hh => hx hh.symm
        exact DevStep.quiet (by simp [hx]) (by simp [hx]) (by simp [hx]) rfl rfl
          ⟨rfl, rfl, by simp [accepted, acceptedEv, hx']⟩
    · obtain ⟨_, c, src, rs, b, hchan, _, _, rfl⟩ := transmitStart_ok hts
      obtain ⟨hcur, hqe, htx⟩ := (hinv d).ready hb
      rw [hqe] at hq
      simp only [List.nil_append, List.cons.injEq] at hq
      obtain ⟨rfl, rfl⟩ := hq
      have hS : Silent (rs.map (Recv.entry s.now c f src (E.txTime (s.dev d).rate f.length))
          ++ if b then [] else [(s.now, Ev.phyTxDrop d f)]) :=
        (Silent.entries _ _ _ _ _ _).append (silent_drop _ _ _ _)
      by_cases hx : x = d
      · subst hx
        refine DevStep.start f dest ⟨p, proto, m, rfl, hm, hf⟩ hb (by simp [txState]) (by simp [txState]) (by simp [txState]) ?_ ?_
        · simp only [txState]
          rw [txc_insertAll_recv, txc_insert_self _ _ htx]
          simp
        · simp only [txState, if_true, List.append_assoc]
          refine LogStep.of_append rfl ?_ ?_ ?_ <;> obtain ⟨h1, h2, h3⟩ := hS x <;>
          · simp only [phasesT, airs, accepted, projT_append, proj_append, List.append_eq_nil_iff] at h1 h2 h3
            simp [phasesT, airs, accepted, phaseEv, airEv, acceptedEv, h1, h2, h3]
      · have hx' : ¬ d = x := fun hh => hx hh.symm
        refine DevStep.quiet (l := [(s.now, Ev.macTx d f), (s.now, Ev.promiscSniffer d f), (s.now, Ev.sniffer d f)] ++
            ([(s.now, .phyTxBegin d f), (s.now, .onAir d f dest)] ++
            (rs.map (Recv.entry s.now c f src (E.txTime (s.dev d).rate f.length))
              ++ if b then [] else [(s.now, Ev.phyTxDrop d f)]) ++ [(s.now, Ev.sendRet d p dest proto true f)]))
          (by simp [txState, hx]) (by simp [txState, hx]) (by simp [txState, hx]) ?_ ?_ ?_
        · simp only [txState]
          rw [txc_insertAll_recv, txc_insert_other hx']
        · simp [txState]
        · obtain ⟨h1, h2, h3⟩ := hS x
          simp only [phasesT, airs, accepted, projT_append, proj_append, List.append_eq_nil_iff] at h1 h2 h3 ⊢
          simp [phaseEv, airEv, acceptedEv, h1, h2, h3, hx']

theorem devStep_complete {E : Env} {s s' : Sys} {t : Time} {ps : List Pending} {d : DevId} {dest : Addr}
    (hp : s.pending = ⟨t, .txComplete d dest⟩ :: ps)
    (hinv : ∀ x, DevInv s x)
    (h : transmitComplete E { s with now := t, pending := ps } d dest = .ok s') (x : DevId) : DevStep E s .run s' x := by
  obtain ⟨hb, _, f, hcur, hcase⟩ := transmitComplete_ok h
  simp only at hb hcur hcase
  have htd0 : txc d s.pending = [(t, dest)] ∧ txc d ps = [] := by
    obtain ⟨_, _, _, _, h2⟩ := (hinv d).busy hb
    have h3 := h2
    rw [hp, txc_cons] at h3
    simp only [if_true, List.singleton_append, List.cons.injEq] at h3
    rw [h2, ← h3.1]
    exact ⟨rfl, h3.2⟩
  obtain ⟨hts0, htd⟩ := htd0
  have htx : ∀ y, y ≠ d → txc y ps = txc y s.pending := by
    intro y hy
    rw [hp, txc_cons]
    have hy' : ¬ d = y := fun hh => hy hh.symm
    simp [hy']
  rcases hcase with ⟨hq, rfl⟩ | ⟨p, rest, hq, hts⟩
  · by_cases hx : x = d
    · subst hx
      refine DevStep.stop f dest hb (by simp) hcur hq (by simp [hq]) hts0 (LogStep.of_append rfl ?_ rfl rfl)
      simp [phasesT, phaseEv]
    · have hx' : ¬ d = x := fun hh => hx hh.symm
      exact DevStep.quiet (by simp [hx]) (by simp [hx]) (by simp [hx]) (htx x hx) rfl
        ⟨by simp [phasesT, phaseEv, hx'], rfl, rfl⟩
  · obtain ⟨_, c, src, rs, b, hchan, _, _, rfl⟩ := transmitStart_ok hts
    have hS : Silent (rs.map (Recv.entry t c p src (E.txTime (s.dev d).rate p.length))
        ++ if b then [] else [(t, Ev.phyTxDrop d p)]) :=
      (Silent.entries _ _ _ _ _ _).append (silent_drop _ _ _ _)
    by_cases hx : x = d
    · subst hx
      refine DevStep.next f p dest rest hb (by simp [txState]) hcur (by simp [txState]) hq (by simp [txState]) hts0 ?_ ?_
      · simp only [txState]
        rw [txc_insertAll_recv, txc_insert_self _ _ htd]
        simp
      · simp only [txState, if_true, List.append_assoc]
        refine LogStep.of_append rfl ?_ ?_ ?_ <;> obtain ⟨h1, h2, h3⟩ := hS x <;>
        · simp only [phasesT, airs, accepted, projT_append, proj_append, List.append_eq_nil_iff] at h1 h2 h3
          simp [phasesT, airs, accepted, phaseEv, airEv, acceptedEv, h1, h2, h3]
    · have hx' : ¬ d = x := fun hh => hx hh.symm
      refine DevStep.quiet (l := [(t, Ev.phyTxEnd d f), (t, Ev.sniffer d p), (t, Ev.promiscSniffer d p)] ++
          ([(t, .phyTxBegin d p), (t, .onAir d p dest)] ++
          (rs.map (Recv.entry t c p src (E.txTime (s.dev d).rate p.length))
            ++ if b then [] else [(t, Ev.phyTxDrop d p)])))
        (by simp [txState, hx]) (by simp [txState, hx]) (by simp [txState, hx]) ?_ ?_ ?_
      · simp only [txState]
        rw [txc_insertAll_recv, txc_insert_other hx', htx x hx]
      · simp [txState]
      · obtain ⟨h1, h2, h3⟩ := hS x
        simp only [phasesT, airs, accepted, projT_append, proj_append, List.append_eq_nil_iff] at h1 h2 h3 ⊢
        simp [phaseEv, airEv, acceptedEv, h1, h2, h3, hx']

theorem devStep_step {E : Env} {s s' : Sys} {op : Op} (hinv : ∀ x, DevInv s x) (h : step E s op = .ok s')
    (x : DevId) : DevStep E s op s' x := by
  cases op with
  | send d p dest proto => exact devStep_send hinv h x
  | sendFrom d p src dest proto =>
    injection h with h; subst h
    exact DevStep.quiet rfl rfl rfl rfl rfl ⟨rfl, rfl, rfl⟩
  | attach d c =>
    obtain ⟨g, t, _, rfl⟩ := attach_ok h
    by_cases hx : x = d
    · subst hx
      exact DevStep.quiet (by simp) (by simp) (by simp) rfl rfl ⟨rfl, rfl, rfl⟩
    · exact DevStep.quiet (by simp [hx]) (by simp [hx]) (by simp [hx]) rfl rfl ⟨rfl, rfl, rfl⟩
  | detach c slot =>
    obtain ⟨g, t, _, h⟩ := detach_ok h
    rcases h with ⟨d, _, _, rfl⟩ | ⟨_, rfl⟩
    · by_cases hx : x = d
      · subst hx
        exact DevStep.quiet (by simp) (by simp) (by simp) rfl rfl ⟨rfl, rfl, rfl⟩
      · exact DevStep.quiet (by simp [hx]) (by simp [hx]) (by simp [hx]) rfl rfl ⟨rfl, rfl, rfl⟩
    · exact DevStep.quiet rfl rfl rfl rfl rfl ⟨rfl, rfl, rfl⟩
  | setAddress d a =>
    cases a with
    | other => cases h
    | mac m => injection h with h; subst h; apply devStep_set <;> rfl
  | run =>
    simp only [step, run] at h
    split at h
    · injection h with h; subst h
      exact DevStep.quiet (l := []) rfl rfl rfl rfl (by simp) ⟨rfl, rfl, rfl⟩
    · rename_i p ps hp
      obtain ⟨t, a⟩ := p
      cases a with
      | txComplete d dest => exact devStep_complete hp hinv h x
      | receive d f src rx =>
        obtain ⟨l, hl, rfl⟩ := receive_ok h
        refine DevStep.quiet rfl rfl rfl ?_ rfl ?_
        · rw [hp, txc_cons]; rfl
        · exact Silent.append (l := [(t, Ev.recvCall d f src rx)]) (fun _ => ⟨rfl, rfl, rfl⟩) (Silent.rxEvs _ hl) x
  | wait dt =>
    simp only [step] at h
    split at h <;> injection h with h <;> subst h <;>
      exact DevStep.quiet (l := []) rfl rfl rfl rfl (by simp) ⟨rfl, rfl, rfl⟩
  | _ => injection h with h; subst h; apply devStep_set <;> rfl

/-! ### Clock and log -/

/-- Events are sorted and none lies in the past. -/
structure ClockInv (s : Sys) : Prop where
  sorted : SortedP s.pending
  future : ∀ p ∈ s.pending, s.now ≤ p.time

/-- New entries carry the time after the operation, and time does not run backwards. -/
structure TimeStep (s s' : Sys) : Prop where
  now : s.now ≤ s'.now
  log : ∃ l, s'.log = s.log ++ l ∧ ∀ e ∈ l, e.1 = s'.now

theorem txState_clock {E : Env} {s : Sys} {d : DevId} {f : Bytes} {dest : Addr} {c : ChanId} {src : DevId}
    {rs : List Recv} {b : Bool} (h1 : SortedP s.pending) (h2 : ∀ p ∈ s.pending, s.now ≤ p.time) :
    SortedP (txState E s d f dest c src rs b).pending ∧
      ∀ p ∈ (txState E s d f dest c src rs b).pending, s.now ≤ p.time := by
  refine ⟨sorted_insertAll (sorted_insertPending h1), ?_⟩
  intro p hp
  simp only [txState] at hp
  rw [mem_insertAll, mem_insertPending] at hp
  rcases hp with hp | rfl | hp
  · obtain ⟨r, _, rfl⟩ := List.mem_map.mp hp
    simp [Recv.pend]
  · simp
  · exact h2 p hp

theorem txState_log_now {E : Env} {s : Sys} {d : DevId} {f : Bytes} {dest : Addr} {c : ChanId} {src : DevId}
    {rs : List Recv} {b : Bool} :
    ∃ l, (txState E s d f dest c src rs b).log = s.log ++ l ∧ ∀ e ∈ l, e.1 = s.now := by
  refine ⟨_, rfl, ?_⟩
  intro e he
  simp only [List.mem_append, List.mem_cons, List.not_mem_nil, or_false, List.mem_map] at he
  rcases he with (rfl | rfl) | ⟨r, _, rfl⟩ | he
  · rfl
  · rfl
  · rfl
  · cases b <;> simp at he; simp [he]

theorem clock_step {E : Env} {s s' : Sys} {op : Op} (hc : ClockInv s) (h : step E s op = .ok s') :
    ClockInv s' ∧ TimeStep s s' := by
  have quiet : ∀ s' : Sys, s'.now = s.now → s'.pending = s.pending →
      (∃ l, s'.log = s.log ++ l ∧ ∀ e ∈ l, e.1 = s.now) → ClockInv s' ∧ TimeStep s s' := by
    intro s' h1 h2 h3
    refine ⟨⟨by rw [h2]; exact hc.sorted, by rw [h1, h2]; exact hc.future⟩, by omega, ?_⟩
    rw [h1]; exact h3
  cases op with
  | send d p dest proto =>
    rcases send_ok h with ⟨_, rfl⟩ | ⟨hlu, _, m, _, f, hf, hcase⟩
    · exact quiet _ rfl rfl ⟨_, rfl, by simp⟩
    · rcases hcase with ⟨_, rfl⟩ | ⟨hlen, hb, rfl⟩ | ⟨hlen, hb, g, rest, s3, hq, hts, rfl⟩
      · exact quiet _ rfl rfl ⟨_, rfl, by simp⟩
      · exact quiet _ rfl rfl ⟨_, rfl, by simp⟩
      · obtain ⟨_, c, src, rs, b, hchan, _, _, rfl⟩ := transmitStart_ok hts
        have h1 := txState_clock (E := E) (s := { s with
            dev := (fun x => if x = d then { s.dev d with queue := rest } else s.dev x),
            log := s.log ++ [(s.now, .macTx d f), (s.now, .promiscSniffer d g), (s.now, .sniffer d g)] })
            (d := d) (f := g) (dest := dest) (c := c) (src := src) (rs := rs) (b := b) hc.sorted hc.future
        obtain ⟨l, h2, h3⟩ := txState_log_now (E := E) (s := { s with
            dev := (fun x => if x = d then { s.dev d with queue := rest } else s.dev x),
            log := s.log ++ [(s.now, .macTx d f), (s.now, .promiscSniffer d g), (s.now, .sniffer d g)] })
            (d := d) (f := g) (dest := dest) (c := c) (src := src) (rs := rs) (b := b)
        refine ⟨⟨h1.1, h1.2⟩, Nat.le_refl _,
          [(s.now, .macTx d f), (s.now, .promiscSniffer d g), (s.now, .sniffer d g)] ++ l ++
            [(s.now, .sendRet d p dest proto true f)], ?_, ?_⟩
        · simp only [h2]; simp [txState]
        · intro e he
          simp only [List.mem_append, List.mem_cons, List.not_mem_nil, or_false] at he
          rcases he with ((rfl | rfl | rfl) | he) | rfl
          · rfl
          · rfl
          · rfl
          · exact h3 e he
          · rfl
  | sendFrom d p src dest proto =>
    injection h with h; subst h
    exact quiet _ rfl rfl ⟨_, rfl, by simp⟩
  | attach d c =>
    obtain ⟨g, t, _, rfl⟩ := attach_ok h
    exact quiet _ rfl rfl ⟨_, rfl, by simp⟩
  | detach c slot =>
    obtain ⟨g, t, _, h⟩ := detach_ok h
    rcases h with ⟨d, _, _, rfl⟩ | ⟨_, rfl⟩ <;> exact quiet _ rfl rfl ⟨_, rfl, by simp⟩
  | setAddress d a =>
    cases a with
    | other => cases h
    | mac m => injection h with h; subst h; exact quiet _ rfl rfl ⟨[], by simp [Sys.setDev], by simp⟩
  | run =>
    simp only [step, run] at h
    split at h
    · injection h with h; subst h
      exact quiet _ rfl rfl ⟨[], by simp, by simp⟩
    · rename_i p ps hp
      obtain ⟨t, a⟩ := p
      have hs := hc.sorted
      rw [hp] at hs
      have hs' := List.pairwise_cons.mp hs
      have hnow : s.now ≤ t := hc.future ⟨t, a⟩ (by simp [hp])
      cases a with
      | receive d f src rx =>
        obtain ⟨l, hl, rfl⟩ := receive_ok h
        refine ⟨⟨hs'.2, hs'.1⟩, hnow, _, rfl, ?_⟩
        intro e he
        rcases List.mem_cons.mp he with rfl | he
        · rfl
        · obtain ⟨x, _, rfl⟩ := List.mem_map.mp he
          rfl
      | txComplete d dest =>
        obtain ⟨hb, _, f, hcur, hcase⟩ := transmitComplete_ok h
        rcases hcase with ⟨hq, rfl⟩ | ⟨q, rest, hq, hts⟩
        · exact ⟨⟨hs'.2, hs'.1⟩, hnow, _, rfl, by simp⟩
        · obtain ⟨_, c, src, rs, b, hchan, _, _, hs3⟩ := transmitStart_ok hts
          have h1 := txState_clock (E := E) (s := { s with
              now := t, pending := ps,
              dev := (fun x => if x = d then { s.dev d with busy := false, cur := none, queue := rest } else s.dev x),
              log := s.log ++ [(t, .phyTxEnd d f), (t, .sniffer d q), (t, .promiscSniffer d q)] })
              (d := d) (f := q) (dest := dest) (c := c) (src := src) (rs := rs) (b := b) hs'.2 hs'.1
          obtain ⟨l, h2, h3⟩ := txState_log_now (E := E) (s := { s with
              now := t, pending := ps,
              dev := (fun x => if x = d then { s.dev d with busy := false, cur := none, queue := rest } else s.dev x),
              log := s.log ++ [(t, .phyTxEnd d f), (t, .sniffer d q), (t, .promiscSniffer d q)] })
              (d := d) (f := q) (dest := dest) (c := c) (src := src) (rs := rs) (b := b)
          rw [hs3]
          refine ⟨⟨h1.1, h1.2⟩, hnow, [(t, .phyTxEnd d f), (t, .sniffer d q), (t, .promiscSniffer d q)] ++ l, ?_, ?_⟩
          · rw [h2]; simp
          · intro e he
            simp only [List.mem_append, List.mem_cons, List.not_mem_nil, or_false] at he
            rcases he with (rfl | rfl | rfl) | he
            · rfl
            · rfl
            · rfl
            · exact h3 e he
  | wait dt =>
    simp only [step] at h
    split at h
    · rename_i hall
      injection h with h; subst h
      refine ⟨⟨hc.sorted, ?_⟩, by simp, [], by simp, by simp⟩
      intro p hp
      rw [List.all_eq_true] at hall
      simpa using hall p hp
    · injection h with h; subst h
      exact quiet _ rfl rfl ⟨[], by simp, by simp⟩
  | _ => injection h with h; subst h; exact quiet _ rfl rfl ⟨[], by simp [Sys.setDev], by simp⟩

theorem clockInv_initial {s : Sys} (h : Initial s) : ClockInv s := by
  constructor
  · rw [h.pending]; exact List.Pairwise.nil
  · simp [h.pending]

theorem clockInv_exec {E : Env} {s s' : Sys} {ops : List Op} (h0 : Initial s) (h : exec E s ops = .ok s') :
    ClockInv s' :=
  exec_induct (P := ClockInv) (fun _ _ _ hP hs => (clock_step hP hs).1) (clockInv_initial h0) h

theorem timeStep_exec {E : Env} {s s' : Sys} {ops : List Op} (h0 : ClockInv s) (h : exec E s ops = .ok s') :
    s.now ≤ s'.now ∧ ∃ l, s'.log = s.log ++ l := by
  induction ops generalizing s with
  | nil => injection h with h; subst h; exact ⟨Nat.le_refl _, [], by simp⟩
  | cons op ops ih =>
    simp only [exec] at h
    rw [Outcome.bind_eq_ok] at h
    obtain ⟨s1, h1, h2⟩ := h
    obtain ⟨hc, hn, l, hl, _⟩ := clock_step h0 h1
    obtain ⟨hn2, l2, hl2⟩ := ih hc h2
    exact ⟨by omega, l ++ l2, by rw [hl2, hl]; simp⟩

/-- Only attaching brings a link up. -/
theorem linkUp_step {E : Env} {s s' : Sys} {op : Op} {d : DevId} (hl : (s.dev d).linkUp = false)
    (hop : ∀ c, op ≠ .attach d c) (h : step E s op = .ok s') : (s'.dev d).linkUp = false := by
  have set : ∀ (x : DevId) (v : Dev), v.linkUp = (s.dev x).linkUp → ((s.setDev x v).dev d).linkUp = false := by
    intro x v hv
    by_cases hx : d = x
    · subst hx; simp [Sys.setDev, hv, hl]
    · simp [Sys.setDev, hx, hl]
  cases op with
  | send x p dest proto =>
    rcases send_ok h with ⟨_, rfl⟩ | ⟨hlu, _, m, _, f, hf, hcase⟩
    · exact hl
    · rcases hcase with ⟨_, rfl⟩ | ⟨hlen, hb, rfl⟩ | ⟨hlen, hb, g, rest, s3, hq, hts, rfl⟩
      · exact hl
      · by_cases hx : d = x
        · subst hx; simpa using hl
        · simpa [hx] using hl
      · obtain ⟨_, c, src, rs, b, hchan, _, _, rfl⟩ := transmitStart_ok hts
        by_cases hx : d = x
        · subst hx; simpa [txState] using hl
        · simpa [txState, hx] using hl
  | sendFrom => injection h with h; subst h; exact hl
  | attach x c =>
    obtain ⟨g, t, _, rfl⟩ := attach_ok h
    by_cases hx : d = x
    · subst hx; exact absurd rfl (hop c)
    · simpa [hx] using hl
  | detach c slot =>
    obtain ⟨g, t, _, h⟩ := detach_ok h
    rcases h with ⟨x, _, _, rfl⟩ | ⟨_, rfl⟩
    · by_cases hx : d = x
      · subst hx; simp
      · simpa [hx] using hl
    · exact hl
  | setAddress x a =>
    cases a with
    | other => cases h
    | mac m => injection h with h; subst h; exact set _ _ rfl
  | run =>
    simp only [step, run] at h
    split at h
    · injection h with h; subst h; exact hl
    · rename_i p ps hp
      obtain ⟨t, a⟩ := p
      cases a with
      | receive x f src rx =>
        obtain ⟨l, _, rfl⟩ := receive_ok h
        exact hl
      | txComplete x dest =>
        obtain ⟨hb, _, f, hcur, hcase⟩ := transmitComplete_ok h
        rcases hcase with ⟨hq, rfl⟩ | ⟨q, rest, hq, hts⟩
        · by_cases hx : d = x
          · subst hx; simpa using hl
          · simpa [hx] using hl
        · obtain ⟨_, c, src, rs, b, hchan, _, _, hs3⟩ := transmitStart_ok hts
          rw [hs3]
          by_cases hx : d = x
          · subst hx; simpa [txState] using hl
          · simpa [txState, hx] using hl
  | wait dt =>
    simp only [step] at h
    split at h <;> injection h with h <;> subst h <;> exact hl
  | _ => injection h with h; subst h; exact set _ _ rfl

/-- The reachable states' combined invariant. -/
structure Inv (s : Sys) : Prop where
  dev : ∀ d, DevInv s d
  clock : ClockInv s

theorem inv_initial {s : Sys} (h : Initial s) : Inv s := ⟨devInv_initial h, clockInv_initial h⟩

theorem inv_step {E : Env} {s s' : Sys} {op : Op} (hi : Inv s) (h : step E s op = .ok s') : Inv s' :=
  ⟨fun x => devInv_step hi.dev h x, (clock_step hi.clock h).1⟩

theorem inv_exec {E : Env} {s s' : Sys} {ops : List Op} (h0 : Inv s) (h : exec E s ops = .ok s') : Inv s' :=
  exec_induct (P := Inv) (fun _ _ _ hP hs => inv_step hP hs) h0 h

end Verif
