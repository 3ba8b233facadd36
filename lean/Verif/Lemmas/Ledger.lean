import Verif.Spec.Ledger
import Verif.Lemmas.NetInv
import Verif.Lemmas.NetDrain
import Verif.Props.Frame
/-!
# Lemmas for the book-keeping of packets
-/

namespace Verif
open Verif.Spec

theorem tally_append (k : Fate) (l m : List (Time × Ev)) : tally k (l ++ m) = tally k l + tally k m := by simp [tally]

theorem tally_nil (k : Fate) : tally k [] = 0 := rfl

theorem tally_cons (k : Fate) (e : Time × Ev) (l : List (Time × Ev)) :
    tally k (e :: l) = (if fate e.2 = some k then 1 else 0) + tally k l := by
  unfold tally
  rw [List.countP_cons]
  by_cases h : fate e.2 = some k <;> simp [h] <;> omega

theorem tally_entries (k : Fate) (now : Time) (c : ChanId) (f : Bytes) (src : DevId) (t : Time) (rs : List Recv) :
    tally k (rs.map (Recv.entry now c f src t)) = if k = .copied then rs.length else 0 := by
  induction rs with
  | nil => simp [tally]
  | cons r rs ih =>
    rw [List.map_cons, tally_cons, ih]
    cases k <;> simp [Recv.entry, fate]
    omega

/-- The number of receptions among pending events. -/
def flights (ps : List Pending) : Nat := ps.countP fun p => match p.act with | .receive .. => true | _ => false

theorem inFlight_eq (s : Sys) : inFlight s = flights s.pending := rfl

theorem flights_perm {a b : List Pending} (h : a.Perm b) : flights a = flights b := h.countP_eq _

theorem flights_pends (now : Time) (f : Bytes) (src : DevId) (rs : List Recv) :
    flights (rs.map (Recv.pend now f src)) = rs.length := by
  induction rs with
  | nil => rfl
  | cons r rs ih =>
    unfold flights at *
    rw [List.map_cons, List.countP_cons, ih]
    simp [Recv.pend]

theorem flights_tx {now : Time} {d : DevId} {dest : Addr} {rs : List Recv} {f : Bytes} {src : DevId} {t : Time} {ps : List Pending} :
    flights (insertAll (rs.map (Recv.pend now f src)) (insertPending ⟨t, .txComplete d dest⟩ ps)) = rs.length + flights ps := by
  rw [flights_perm (insertAll_perm _ _)]
  have h1 : ∀ a b : List Pending, flights (a ++ b) = flights a + flights b := fun a b => by simp [flights]
  rw [h1, flights_pends, flights_perm (insertPending_perm _ _)]
  simp [flights]

theorem sum_update (g : Nat → Nat) (a : Nat) {n d : Nat} (h : d < n) :
    ((List.range n).map fun x => if x = d then a else g x).sum + g d = ((List.range n).map g).sum + a := by
  induction n with
  | zero => omega
  | succ n ih =>
    simp only [List.range_succ, List.map_append, List.sum_append, List.map_cons, List.map_nil, List.sum_cons, List.sum_nil]
    by_cases hd : n = d
    · subst hd
      have : ((List.range n).map fun x => if x = n then a else g x) = (List.range n).map g := by
        apply List.map_congr_left
        intro x hx
        rw [if_neg (by have := List.mem_range.mp hx; omega)]
      rw [this, if_pos rfl]
      omega
    · have := ih (by omega)
      rw [if_neg hd]
      omega

theorem waiting_set {n : Nat} {s s' : Sys} {d : DevId} {q : List Bytes} (h : d < n)
    (hq : ∀ x, (s'.dev x).queue = if x = d then q else (s.dev x).queue) :
    waiting n s' + (s.dev d).queue.length = waiting n s + q.length := by
  unfold waiting
  rw [← sum_update (fun x => (s.dev x).queue.length) q.length h]
  congr 2
  apply List.map_congr_left
  intro x _
  rw [hq]
  by_cases hx : x = d <;> simp [hx]

theorem waiting_same {n : Nat} {s s' : Sys} (h : ∀ x, (s'.dev x).queue = (s.dev x).queue) : waiting n s' = waiting n s := by
  unfold waiting
  congr 1
  apply List.map_congr_left
  intro x _
  rw [h]

/-- The books that are always balanced. -/
structure Books (n : Nat) (s : Sys) : Prop where
  sends : tally .sent s.log = tally .macTxDrop s.log + tally .begun s.log + waiting n s
  copies : tally .copied s.log = inFlight s + tally .arrived s.log
  arrivals : tally .arrived s.log = tally .macRxDrop s.log + tally .heard s.log
  heard : tally .phyRxDrop s.log + tally .passedUp s.log ≤ tally .heard s.log
  above : ∀ d, n ≤ d → (s.dev d).busy = false

theorem books_initial {n : Nat} {s : Sys} (h : Initial s) : Books n s := by
  have hw : waiting n s = 0 := by
    unfold waiting
    rw [List.sum_eq_zero]
    intro x hx
    obtain ⟨d, _, rfl⟩ := List.mem_map.mp hx
    rw [(h.idle d).2.2.1]; rfl
  refine ⟨?_, ?_, ?_, ?_, fun d _ => (h.idle d).1⟩
  · rw [h.log, hw]; rfl
  · rw [h.log, inFlight_eq, h.pending]; rfl
  · rw [h.log]; rfl
  · rw [h.log]; exact Nat.le_refl _

theorem Books.grow {n : Nat} {s s' : Sys} {l : List (Time × Ev)} (hb : Books n s) (hl : s'.log = s.log ++ l)
    (h1 : tally .sent l + waiting n s = tally .macTxDrop l + tally .begun l + waiting n s')
    (h2 : tally .copied l + flights s.pending = flights s'.pending + tally .arrived l)
    (h3 : tally .arrived l = tally .macRxDrop l + tally .heard l)
    (h4 : tally .phyRxDrop l + tally .passedUp l ≤ tally .heard l)
    (h5 : ∀ d, n ≤ d → (s.dev d).busy = false → (s'.dev d).busy = false) : Books n s' := by
  obtain ⟨b1, b2, b3, b4, b5⟩ := hb
  rw [inFlight_eq] at b2
  refine ⟨?_, ?_, ?_, ?_, fun d hd => h5 d hd (b5 d hd)⟩ <;> simp only [hl, tally_append, inFlight_eq] <;> omega

/-- A transmission: one frame begun, the copies counted, one PhyTxDrop at most. -/
theorem tally_start {E : Env} {s s' : Sys} {d : DevId} {f : Bytes} {dest : Addr} (h : transmitStart E s d f dest = .ok s') :
    ∃ l, s'.log = s.log ++ l ∧ tally .copied l + flights s.pending = flights s'.pending ∧ tally .begun l = 1 ∧
      (∀ k, k ≠ .copied → k ≠ .begun → k ≠ .phyTxDrop → tally k l = 0) ∧
      (∀ x, (s'.dev x).queue = (s.dev x).queue) ∧ (∀ x, x ≠ d → (s'.dev x).busy = (s.dev x).busy) := by
  obtain ⟨_, c, src, rs, b, _, _, _, rfl⟩ := transmitStart_ok h
  have hb : ∀ k, tally k (if b = true then [] else [(s.now, Ev.phyTxDrop d f)]) = if k = .phyTxDrop then (if b = true then 0 else 1) else 0 := by
    intro k
    cases b <;> cases k <;> rfl
  refine ⟨_, rfl, ?_, ?_, ?_, ?_, ?_⟩
  · simp only [txState]
    rw [flights_tx]
    simp only [tally_append, tally_entries, tally_cons, tally_nil, hb, fate]; simp
  · simp only [tally_append, tally_entries, tally_cons, tally_nil, hb, fate]; simp
  · intro k h1 h2 h3
    simp only [tally_append, tally_entries, tally_cons, tally_nil, hb, fate, if_neg h1, if_neg h3]
    cases k <;> simp_all
  · intro x
    simp only [txState]
    by_cases hx : x = d <;> simp [hx]
  · intro x hx
    simp only [txState, if_neg hx]

theorem books_send {E : Env} {n : Nat} {s s' : Sys} {d : DevId} {p : Bytes} {dest : Addr} {proto : UInt16} (hb : Books n s) (hd : d < n)
    (h : send E s d p dest proto = .ok s') : Books n s' := by
  rcases send_ok h with ⟨_, rfl⟩ | ⟨_, _, m, _, f, _, ⟨_, rfl⟩ | ⟨_, hbusy, rfl⟩ | ⟨_, _, g, rest, s3, hq, hts, rfl⟩⟩
  · exact hb.grow rfl (by simp [tally_cons, tally_nil, fate, waiting]) (by simp [tally_cons, tally_nil, fate])
      (by simp [tally_cons, tally_nil, fate]) (by simp [tally_cons, tally_nil, fate]) (fun _ _ h => h)
  · exact hb.grow rfl (by simp [tally_cons, tally_nil, fate, waiting]) (by simp [tally_cons, tally_nil, fate])
      (by simp [tally_cons, tally_nil, fate]) (by simp [tally_cons, tally_nil, fate]) (fun _ _ h => h)
  · refine hb.grow rfl ?_ (by simp [tally_cons, tally_nil, fate])
      (by simp [tally_cons, tally_nil, fate]) (by simp [tally_cons, tally_nil, fate]) (fun x hx h => ?_)
    · have hw := waiting_set (n := n) (s := s) (q := (s.dev d).queue ++ [f]) hd
        (s' := { s with dev := (fun x => if x = d then { s.dev d with queue := (s.dev d).queue ++ [f] } else s.dev x),
                        log := s.log ++ [(s.now, .macTx d f), (s.now, .sendRet d p dest proto true f)] })
        (fun x => by by_cases hx : x = d <;> simp [hx])
      simp only [List.length_append, List.length_singleton] at hw
      simp only [tally_cons, tally_nil, fate, reduceCtorEq, Option.some.injEq, if_false, if_true]
      omega
    · have : x ≠ d := fun e => by subst e; exact absurd hd (Nat.not_lt.mpr hx)
      simp only [if_neg this]
      exact h
  · obtain ⟨l, t1, t2, t3, t5, t6, t7⟩ := tally_start hts
    have hw := waiting_set (n := n) (s := s) (s' := s3) (q := rest) hd
      (fun x => by rw [t6]; by_cases hx : x = d <;> simp [hx])
    have hlen := congrArg List.length hq
    simp only [List.length_append, List.length_cons, List.length_nil] at hlen
    simp only at t2
    refine hb.grow (l := [(s.now, .macTx d f), (s.now, .promiscSniffer d g), (s.now, .sniffer d g)] ++ l ++ [(s3.now, .sendRet d p dest proto true f)])
      ?_ ?_ ?_ ?_ ?_ (fun x hx h => ?_)
    · simp [t1]
    · rw [show waiting n { s3 with log := s3.log ++ [(s3.now, .sendRet d p dest proto true f)] } = waiting n s3 from rfl]
      simp only [tally_append, tally_cons, tally_nil, fate, reduceCtorEq, Option.some.injEq, if_false, if_true, t3,
        t5 .sent (by decide) (by decide) (by decide), t5 .macTxDrop (by decide) (by decide) (by decide)]
      omega
    · simp only [tally_append, tally_cons, tally_nil, fate, reduceCtorEq, Option.some.injEq, if_false, if_true,
        t5 .arrived (by decide) (by decide) (by decide)]
      omega
    · simp only [tally_append, tally_cons, tally_nil, fate, reduceCtorEq, Option.some.injEq, if_false,
        t5 .arrived (by decide) (by decide) (by decide), t5 .macRxDrop (by decide) (by decide) (by decide), t5 .heard (by decide) (by decide) (by decide)]
    · simp only [tally_append, tally_cons, tally_nil, fate, reduceCtorEq, Option.some.injEq, if_false,
        t5 .phyRxDrop (by decide) (by decide) (by decide), t5 .passedUp (by decide) (by decide) (by decide), t5 .heard (by decide) (by decide) (by decide)]
      omega
    · have hn : x ≠ d := fun e => by subst e; exact absurd hd (Nat.not_lt.mpr hx)
      show (s3.dev x).busy = false
      rw [t7 x hn]
      simp only [if_neg hn]
      exact h

theorem flights_cons (p : Pending) (ps : List Pending) :
    flights (p :: ps) = flights ps + (match p.act with | .receive .. => 1 | _ => 0) := by
  unfold flights
  rw [List.countP_cons]
  cases p.act <;> simp

theorem books_complete {E : Env} {n : Nat} {s s' : Sys} {t : Time} {ps : List Pending} {d : DevId} {dest : Addr}
    (hp : s.pending = ⟨t, .txComplete d dest⟩ :: ps) (hb : Books n s)
    (h : transmitComplete E { s with now := t, pending := ps } d dest = .ok s') : Books n s' := by
  obtain ⟨hbusy, _, f, hcur, hcase⟩ := transmitComplete_ok h
  simp only at hbusy hcase
  have hd : d < n := by
    rcases Nat.lt_or_ge d n with h | h
    · exact h
    · rw [hb.above d h] at hbusy; cases hbusy
  have hfl : flights s.pending = flights ps := by rw [hp, flights_cons]; rfl
  rcases hcase with ⟨hq, rfl⟩ | ⟨p, rest, hq, hts⟩
  · refine hb.grow rfl ?_ (by simp [tally_cons, tally_nil, fate, hfl])
      (by simp [tally_cons, tally_nil, fate]) (by simp [tally_cons, tally_nil, fate]) (fun x hx h => ?_)
    · have hw : ∀ w, w = waiting n s → tally .sent [(t, Ev.phyTxEnd d f)] + waiting n s
          = tally .macTxDrop [(t, Ev.phyTxEnd d f)] + tally .begun [(t, Ev.phyTxEnd d f)] + w := by
        rintro w rfl
        simp [tally_cons, tally_nil, fate]
      exact hw _ (waiting_same (fun x => by by_cases hx : x = d <;> simp [hx]))
    · by_cases hx : x = d <;> simp [hx]
      exact h
  · obtain ⟨l, t1, t2, t3, t5, t6, t7⟩ := tally_start hts
    have hw := waiting_set (n := n) (s := s) (s' := s') (q := rest) hd
      (fun x => by rw [t6]; by_cases hx : x = d <;> simp [hx])
    have hlen := congrArg List.length hq
    simp only [List.length_cons] at hlen
    simp only at t2
    refine hb.grow (l := [(t, .phyTxEnd d f), (t, .sniffer d p), (t, .promiscSniffer d p)] ++ l) ?_ ?_ ?_ ?_ ?_ (fun x hx h => ?_)
    · rw [t1]; simp
    · simp only [tally_append, tally_cons, tally_nil, fate, reduceCtorEq, Option.some.injEq, if_false, t3,
        t5 .sent (by decide) (by decide) (by decide), t5 .macTxDrop (by decide) (by decide) (by decide)]
      omega
    · simp only [tally_append, tally_cons, tally_nil, fate, reduceCtorEq, Option.some.injEq, if_false,
        t5 .arrived (by decide) (by decide) (by decide)]
      omega
    · simp only [tally_append, tally_cons, tally_nil, fate, reduceCtorEq, Option.some.injEq, if_false,
        t5 .arrived (by decide) (by decide) (by decide), t5 .macRxDrop (by decide) (by decide) (by decide), t5 .heard (by decide) (by decide) (by decide)]
    · simp only [tally_append, tally_cons, tally_nil, fate, reduceCtorEq, Option.some.injEq, if_false,
        t5 .phyRxDrop (by decide) (by decide) (by decide), t5 .passedUp (by decide) (by decide) (by decide), t5 .heard (by decide) (by decide) (by decide)]
      omega
    · have hn : x ≠ d := fun e => by subst e; exact absurd hd (Nat.not_lt.mpr hx)
      rw [t7 x hn]
      simp only [if_neg hn]
      exact h

/-- What a reception adds to the log. -/
structure RxAdds (E : Env) (v : Dev) (f : Bytes) (l : List (Time × Ev)) : Prop where
  arrived : tally .arrived l = 1
  split : 1 = tally .macRxDrop l + tally .heard l
  le : tally .phyRxDrop l + tally .passedUp l ≤ tally .heard l
  eq : (∀ p proto a b, decode E.fcs f = .ok (.good p proto a b) → b = v.addr) →
    tally .phyRxDrop l + tally .passedUp l = tally .heard l
  no : ∀ k, k = .sent ∨ k = .macTxDrop ∨ k = .begun ∨ k = .phyTxDrop ∨ k = .copied → tally k l = 0

theorem packetType_own (a : Mac48) : packetType a a ≠ .otherHost := by
  unfold packetType
  split
  · simp
  · simp

theorem tally_receive {E : Env} {s s' : Sys} {d src : DevId} {f : Bytes} {rx : Power} (h : receive E s d f src rx = .ok s') :
    ∃ l, s' = { s with log := s.log ++ l } ∧ RxAdds E (s.dev d) f l := by
  unfold receive at h
  simp only at h
  split at h
  · injection h with h
    refine ⟨[(s.now, .recvCall d f src rx), (s.now, .macRxDrop d f)], by simp [← h, Sys.emit], rfl, rfl, Nat.le_refl _, fun _ => rfl, ?_⟩
    rintro k (rfl | rfl | rfl | rfl | rfl) <;> rfl
  · split at h
    · injection h with h
      refine ⟨[(s.now, .recvCall d f src rx), (s.now, .phyRxEnd d f), (s.now, .phyRxDrop d f)], by simp [← h, Sys.emit], rfl, rfl, Nat.le_refl _, fun _ => rfl, ?_⟩
      rintro k (rfl | rfl | rfl | rfl | rfl) <;> rfl
    · split at h
      · injection h with h
        refine ⟨[(s.now, .recvCall d f src rx), (s.now, .phyRxEnd d f), (s.now, .phyRxDrop d f)], by simp [← h, Sys.emit], rfl, rfl, Nat.le_refl _, fun _ => rfl, ?_⟩
        rintro k (rfl | rfl | rfl | rfl | rfl) <;> rfl
      · rw [Outcome.bind_eq_ok] at h
        obtain ⟨r, hdec, h⟩ := h
        split at h
        · rename_i rest
          injection h with h
          refine ⟨[(s.now, .recvCall d f src rx), (s.now, .phyRxEnd d f), (s.now, .phyRxDrop d rest)], by simp [← h, Sys.emit], rfl, rfl, Nat.le_refl _, fun _ => rfl, ?_⟩
          rintro k (rfl | rfl | rfl | rfl | rfl) <;> rfl
        · rename_i p proto srcA dstA
          have hown : (∀ p proto a b, decode E.fcs f = .ok (.good p proto a b) → b = (s.dev d).addr) →
              packetType dstA ((s.emit (.recvCall d f src rx)).dev d).addr ≠ .otherHost := by
            intro hh
            rw [hh _ _ _ _ hdec]
            exact packetType_own _
          generalize packetType dstA ((s.emit (.recvCall d f src rx)).dev d).addr = ty at h hown
          generalize ((s.emit (.recvCall d f src rx)).dev d).promiscCb = pc at h
          split at h
          · rename_i hty
            injection h with h
            cases pc
            · refine ⟨[(s.now, .recvCall d f src rx), (s.now, .phyRxEnd d f), (s.now, .promiscSniffer d f)], by simp [← h, Sys.emit], rfl, rfl,
                Nat.zero_le _, fun hh => absurd hty (hown hh), ?_⟩
              rintro k (rfl | rfl | rfl | rfl | rfl) <;> rfl
            · refine ⟨[(s.now, .recvCall d f src rx), (s.now, .phyRxEnd d f), (s.now, .promiscSniffer d f), (s.now, .macPromiscRx d f),
                (s.now, .promiscCallback d p proto srcA dstA ty)], by simp [← h, Sys.emit], rfl, rfl,
                Nat.zero_le _, fun hh => absurd hty (hown hh), ?_⟩
              rintro k (rfl | rfl | rfl | rfl | rfl) <;> rfl
          · split at h
            · injection h with h
              cases pc
              · refine ⟨[(s.now, .recvCall d f src rx), (s.now, .phyRxEnd d f), (s.now, .promiscSniffer d f), (s.now, .macRx d f),
                  (s.now, .rxCallback d p proto srcA)], by simp [← h, Sys.emit], rfl, rfl, Nat.le_refl _, fun _ => rfl, ?_⟩
                rintro k (rfl | rfl | rfl | rfl | rfl) <;> rfl
              · refine ⟨[(s.now, .recvCall d f src rx), (s.now, .phyRxEnd d f), (s.now, .promiscSniffer d f), (s.now, .macPromiscRx d f),
                  (s.now, .promiscCallback d p proto srcA dstA ty), (s.now, .macRx d f),
                  (s.now, .rxCallback d p proto srcA)], by simp [← h, Sys.emit], rfl, rfl, Nat.le_refl _, fun _ => rfl, ?_⟩
                rintro k (rfl | rfl | rfl | rfl | rfl) <;> rfl
            · cases h

theorem books_receive {E : Env} {n : Nat} {s s' : Sys} {t : Time} {ps : List Pending} {d src : DevId} {f : Bytes} {rx : Power}
    (hp : s.pending = ⟨t, .receive d f src rx⟩ :: ps) (hb : Books n s)
    (h : receive E { s with now := t, pending := ps } d f src rx = .ok s') : Books n s' := by
  obtain ⟨l, rfl, r⟩ := tally_receive h
  have hfl : flights s.pending = flights ps + 1 := by rw [hp, flights_cons]
  refine hb.grow rfl ?_ ?_ (by rw [r.arrived]; exact r.split) r.le (fun _ _ h => h)
  · rw [r.no .sent (by simp), r.no .macTxDrop (by simp), r.no .begun (by simp)]
    simp [waiting]
  · rw [r.no .copied (by simp), r.arrived]
    simp only
    omega

/-- Operations that only change settings, and the quiet ones. -/
theorem Books.quiet {n : Nat} {s s' : Sys} {l : List (Time × Ev)} (hb : Books n s) (hl : s'.log = s.log ++ l) (hp : s'.pending = s.pending)
    (ht : ∀ e ∈ l, fate e.2 = none) (hq : ∀ x, (s'.dev x).queue = (s.dev x).queue) (hbusy : ∀ x, (s'.dev x).busy = (s.dev x).busy) :
    Books n s' := by
  have h0 : ∀ k, tally k l = 0 := by
    intro k
    unfold tally
    rw [List.countP_eq_zero]
    intro e he
    simp [ht e he]
  refine hb.grow hl ?_ ?_ ?_ ?_ (fun x _ h => by rw [hbusy]; exact h)
  · rw [waiting_same hq]; simp [h0]
  · rw [hp]; simp [h0]
  · simp [h0]
  · simp [h0]

theorem books_step {E : Env} {n : Nat} {s s' : Sys} {op : Op} (hb : Books n s) (hn : ∀ d p dest proto, op = .send d p dest proto → d < n)
    (h : step E s op = .ok s') : Books n s' := by
  have quiet : ∀ s' : Sys, (∃ l, s'.log = s.log ++ l ∧ ∀ e ∈ l, fate e.2 = none) → s'.pending = s.pending →
      (∀ x, (s'.dev x).queue = (s.dev x).queue ∧ (s'.dev x).busy = (s.dev x).busy) → Books n s' :=
    fun s' ⟨l, h1, h2⟩ h3 h4 => hb.quiet h1 h3 h2 (fun x => (h4 x).1) (fun x => (h4 x).2)
  cases op with
  | send d p dest proto => exact books_send hb (hn _ _ _ _ rfl) h
  | sendFrom d p a b proto =>
    injection h with h; subst h
    exact quiet _ ⟨_, rfl, by simp [fate]⟩ rfl (fun x => ⟨rfl, rfl⟩)
  | attach d c =>
    obtain ⟨g, t, _, rfl⟩ := attach_ok h
    exact quiet _ ⟨_, rfl, by simp [fate]⟩ rfl (fun x => by by_cases hx : x = d <;> simp [hx])
  | detach c slot =>
    obtain ⟨g, t, _, ⟨d, _, _, rfl⟩ | ⟨_, rfl⟩⟩ := detach_ok h
    · exact quiet _ ⟨_, rfl, by simp [fate]⟩ rfl (fun x => by by_cases hx : x = d <;> simp [hx])
    · exact quiet _ ⟨_, rfl, by simp [fate]⟩ rfl (fun x => ⟨rfl, rfl⟩)
  | setAddress d a =>
    cases a with
    | mac m =>
      injection h with h; subst h
      exact quiet _ ⟨[], by simp [Sys.setDev], by simp⟩ rfl (fun x => by by_cases hx : x = d <;> simp [Sys.setDev, hx])
    | other => cases h
  | run =>
    have h : run E s = .ok s' := h
    unfold run at h
    split at h
    · injection h with h; subst h; exact hb
    · rename_i p ps hp
      obtain ⟨t, a⟩ := p
      cases a with
      | txComplete d dest => exact books_complete hp hb h
      | receive d f src rx => exact books_receive hp hb h
  | wait dt =>
    have h : (if s.pending.all (fun p => decide (s.now + dt ≤ p.time)) then .ok { s with now := s.now + dt } else .ok s) = Outcome.ok s' := h
    split at h
    · injection h with h; subst h
      exact quiet _ ⟨[], by simp, by simp⟩ rfl (fun x => ⟨rfl, rfl⟩)
    · injection h with h; subst h; exact hb
  | setSide d v | setRate d v | setGap d v | setMtu d v | setTxPower d v | setRxThreshold d v | setRxGain d v | setRxLoss d v | setPromisc d v =>
    injection h with h; subst h
    exact quiet _ ⟨[], by simp [Sys.setDev], by simp⟩ rfl (fun x => by by_cases hx : x = d <;> simp [Sys.setDev, hx])

theorem books_exec {E : Env} {n : Nat} {s s' : Sys} {ops : List Op} (hb : Books n s) (hn : SendersBelow n ops) (h : exec E s ops = .ok s') :
    Books n s' := by
  induction ops generalizing s with
  | nil => injection h with h; subst h; exact hb
  | cons op ops ih =>
    obtain ⟨s1, h1, h2⟩ := Outcome.bind_eq_ok.mp h
    exact ih (books_step hb (fun d p dest proto e => hn d p dest proto (by simp [e])) h1)
      (fun d p dest proto hm => hn d p dest proto (List.mem_cons_of_mem _ hm)) h2

/-! ### One peer per device, inter-satellite links -/

/-- A frame addressed to `m`. -/
def FrameFor (E : Env) (m : Mac48) (f : Bytes) : Prop := ∃ p a proto, f = addHeader E.fcs p a m proto

theorem FrameFor.decode {E : Env} {m : Mac48} {f : Bytes} (h : FrameFor E m f) {p : Bytes} {proto : UInt16} {a b : Mac48}
    (hd : decode E.fcs f = .ok (.good p proto a b)) : b = m := by
  obtain ⟨q, a', proto', rfl⟩ := h
  exact (C12_no_truncation _ _ _ _ _ _ _ _ _ hd).2.2.2.1

structure Direct (E : Env) (peer : DevId → Mac48) (s0 s : Sys) : Prop where
  kind : ∀ c, (s.chan c).kind = (s0.chan c).kind
  addr : ∀ d, (s.dev d).addr = (s0.dev d).addr
  isl : ∀ d c, (s.dev d).chan = some c → (s0.chan c).kind = .isl
  queue : ∀ d, ∀ f ∈ (s.dev d).queue, FrameFor E (peer d) f
  comp : ∀ t d dest, ⟨t, .txComplete d dest⟩ ∈ s.pending → dest = .mac (peer d) ∧ peer d ≠ Mac48.broadcast
  recv : ∀ t x f src rx, ⟨t, .receive x f src rx⟩ ∈ s.pending → FrameFor E (s0.dev x).addr f
  begun : tally .begun s.log = tally .phyTxDrop s.log + tally .copied s.log
  heard : tally .heard s.log = tally .phyRxDrop s.log + tally .passedUp s.log

theorem direct_initial {E : Env} {peer : DevId → Mac48} {s : Sys} (h : Initial s) : Direct E peer s s := by
  refine ⟨fun _ => rfl, fun _ => rfl, ?_, ?_, ?_, ?_, ?_, ?_⟩
  · intro d c hc; rw [(h.idle d).2.2.2.2] at hc; cases hc
  · intro d f hf; rw [(h.idle d).2.2.1] at hf; cases hf
  · intro t d dest hm; rw [h.pending] at hm; cases hm
  · intro t x f src rx hm; rw [h.pending] at hm; cases hm
  · rw [h.log]; rfl
  · rw [h.log]; rfl

/-- On an inter-satellite link a frame to one address is handed to one device, which has that address, or dropped. -/
theorem start_isl {E : Env} {s s' : Sys} {d : DevId} {f : Bytes} {m : Mac48} (hk : ∀ c, (s.dev d).chan = some c → (s.chan c).kind = .isl)
    (hm : m ≠ Mac48.broadcast) (h : transmitStart E s d f (.mac m) = .ok s') :
    ∃ l, s'.log = s.log ++ l ∧ tally .begun l = 1 ∧ tally .phyTxDrop l + tally .copied l = 1 ∧ tally .heard l = 0 ∧ tally .phyRxDrop l = 0 ∧
      tally .passedUp l = 0 ∧
      (∀ p ∈ s'.pending, p ∈ s.pending ∨ p.act = .txComplete d (.mac m) ∨ ∃ x src rx, p.act = .receive x f src rx ∧ (s.dev x).addr = m) ∧
      s'.chan = s.chan ∧ (∀ x, (s'.dev x).addr = (s.dev x).addr ∧ (s'.dev x).queue = (s.dev x).queue ∧ (s'.dev x).chan = (s.dev x).chan) := by
  obtain ⟨_, c, src, rs, b, hc, _, _, rfl, haud, hret, _⟩ := transmitStart_aud h
  have hb : ∀ k, tally k (if b = true then [] else [(s.now, Ev.phyTxDrop d f)]) = if k = .phyTxDrop then (if b = true then 0 else 1) else 0 := by
    intro k
    cases b <;> cases k <;> rfl
  have hmem : ∀ x ∈ audience s c (s.dev d).chanSlot (.mac m), (s.dev x).addr = m := by
    intro x hx
    unfold audience at hx
    simp only at hx
    split at hx
    · cases hx
    · rw [hk c hc] at hx
      simp only at hx
      split at hx
      · rename_i y hy
        rw [List.mem_singleton] at hx
        subst hx
        have := List.find?_some hy
        simpa using this
      · rw [if_neg (by simpa using hm)] at hx
        cases hx
  have hlen : (audience s c (s.dev d).chanSlot (.mac m)).length ≤ 1 := by
    unfold audience
    simp only
    split
    · simp
    · rw [hk c hc]
      simp only
      split
      · simp
      · rw [if_neg (by simpa using hm)]; simp
  have hrl : rs.length ≤ 1 := by
    rw [haud]
    exact Nat.le_trans (List.length_filterMap_le _ _) hlen
  have hnf : ¬ Floods s c (s.dev d).chanSlot (.mac m) := by
    rintro ⟨_, _, h3, _⟩
    exact hm (by simpa using h3)
  have hcnt : (if b = true then 0 else 1) + rs.length = 1 := by
    cases hb' : b with
    | true =>
      rcases hret.mp hb' with h1 | h1
      · have := List.length_pos_iff.mpr h1
        simp; omega
      · exact absurd h1 hnf
    | false =>
      have : rs = [] := by
        cases rs with
        | nil => rfl
        | cons r rs => exact absurd (hret.mpr (Or.inl (by simp))) (by simp [hb'])
      simp [this]
  refine ⟨_, rfl, ?_, ?_, ?_, ?_, ?_, ?_, rfl, ?_⟩
  · simp only [tally_append, tally_entries, tally_cons, tally_nil, hb, fate]; simp
  · simp only [tally_append, tally_entries, tally_cons, tally_nil, hb, fate]; simp; omega
  · simp only [tally_append, tally_entries, tally_cons, tally_nil, hb, fate]; simp
  · simp only [tally_append, tally_entries, tally_cons, tally_nil, hb, fate]; simp
  · simp only [tally_append, tally_entries, tally_cons, tally_nil, hb, fate]; simp
  · intro p hp
    simp only [txState] at hp
    rcases mem_insertAll.mp hp with hp | hp
    · obtain ⟨r, hr, rfl⟩ := List.mem_map.mp hp
      right; right
      refine ⟨r.dst, src, r.power, rfl, hmem _ ?_⟩
      rw [haud] at hr
      obtain ⟨y, hy, hyr⟩ := List.mem_filterMap.mp hr
      unfold recvOf at hyr
      split at hyr
      · obtain ⟨z, _, hz⟩ := Option.map_eq_some_iff.mp hyr
        rw [← hz]; exact hy
      · cases hyr
    · rcases mem_insertPending.mp hp with rfl | hp
      · right; left; rfl
      · left; exact hp
  · intro x
    simp only [txState]
    by_cases hx : x = d <;> simp [hx]

/-- A transmission of a frame for the peer keeps the books. -/
theorem direct_start {E : Env} {peer : DevId → Mac48} {s0 s s' : Sys} {d : DevId} {f : Bytes} (hi : Direct E peer s0 s)
    (hm : peer d ≠ Mac48.broadcast) (hf : FrameFor E (peer d) f) (h : transmitStart E s d f (.mac (peer d)) = .ok s') : Direct E peer s0 s' := by
  obtain ⟨l, h1, h2, h3, h4, h5, h6, h7, h8, h9⟩ := start_isl (fun c hc => by rw [hi.kind]; exact hi.isl d c hc) hm h
  refine ⟨?_, ?_, ?_, ?_, ?_, ?_, ?_, ?_⟩
  · intro c; rw [h8]; exact hi.kind c
  · intro x; rw [(h9 x).1]; exact hi.addr x
  · intro x c hc; rw [(h9 x).2.2] at hc; exact hi.isl x c hc
  · intro x; rw [(h9 x).2.1]; exact hi.queue x
  · intro t x dest hp
    rcases h7 _ hp with hp | hp | ⟨_, _, _, hp, _⟩
    · exact hi.comp t x dest hp
    · injection hp with e1 e2; subst e1 e2; exact ⟨rfl, hm⟩
    · cases hp
  · intro t x g src rx hp
    rcases h7 _ hp with hp | hp | ⟨x', src', rx', hp, ha⟩
    · exact hi.recv t x g src rx hp
    · cases hp
    · injection hp with e1 e2 e3 e4; subst e1 e2
      rw [← hi.addr, ha]; exact hf
  · have := hi.begun
    rw [h1]; simp only [tally_append]; omega
  · have := hi.heard
    rw [h1]; simp only [tally_append]; omega

/-- The part of a state that `Direct` looks at, up to log entries that are not counted. -/
theorem Direct.quiet {E : Env} {peer : DevId → Mac48} {s0 s s' : Sys} {l : List (Time × Ev)} (hi : Direct E peer s0 s)
    (hl : s'.log = s.log ++ l) (ht : ∀ e ∈ l, fate e.2 = none ∨ fate e.2 = some .sent ∨ fate e.2 = some .macTxDrop)
    (hp : ∀ p ∈ s'.pending, p ∈ s.pending)
    (hk : ∀ c, (s'.chan c).kind = (s.chan c).kind)
    (hd : ∀ x, (s'.dev x).addr = (s.dev x).addr ∧ ((s'.dev x).chan = (s.dev x).chan ∨ ∀ c, (s'.dev x).chan = some c → (s0.chan c).kind = .isl) ∧
      ∀ f ∈ (s'.dev x).queue, f ∈ (s.dev x).queue ∨ FrameFor E (peer x) f) : Direct E peer s0 s' := by
  have h0 : ∀ k, k ≠ .sent → k ≠ .macTxDrop → tally k l = 0 := by
    intro k h1 h2
    unfold tally
    rw [List.countP_eq_zero]
    intro e he
    rcases ht e he with h | h | h <;> simp [h] <;> tauto
  refine ⟨?_, ?_, ?_, ?_, ?_, ?_, ?_, ?_⟩
  · intro c; rw [hk]; exact hi.kind c
  · intro x; rw [(hd x).1]; exact hi.addr x
  · intro x c hc
    rcases (hd x).2.1 with h | h
    · rw [h] at hc; exact hi.isl x c hc
    · exact h c hc
  · intro x f hf
    rcases (hd x).2.2 f hf with h | h
    · exact hi.queue x f h
    · exact h
  · intro t x dest hm; exact hi.comp t x dest (hp _ hm)
  · intro t x f src rx hm; exact hi.recv t x f src rx (hp _ hm)
  · rw [hl]
    simp only [tally_append, h0 .begun (by decide) (by decide), h0 .phyTxDrop (by decide) (by decide), h0 .copied (by decide) (by decide)]
    exact hi.begun
  · rw [hl]
    simp only [tally_append, h0 .heard (by decide) (by decide), h0 .phyRxDrop (by decide) (by decide), h0 .passedUp (by decide) (by decide)]
    exact hi.heard

theorem direct_send {E : Env} {peer : DevId → Mac48} {s0 s s' : Sys} {d : DevId} {p : Bytes} {dest : Addr} {proto : UInt16}
    (hi : Direct E peer s0 s) (hd : dest = .mac (peer d) ∧ peer d ≠ Mac48.broadcast) (h : send E s d p dest proto = .ok s') :
    Direct E peer s0 s' := by
  obtain ⟨rfl, hm⟩ := hd
  have stay : ∀ x, (s.dev x).addr = (s.dev x).addr ∧ ((s.dev x).chan = (s.dev x).chan ∨ ∀ c, (s.dev x).chan = some c → (s0.chan c).kind = .isl) ∧
      ∀ f ∈ (s.dev x).queue, f ∈ (s.dev x).queue ∨ FrameFor E (peer x) f := fun x => ⟨rfl, Or.inl rfl, fun _ h => Or.inl h⟩
  rcases send_ok h with ⟨_, rfl⟩ | ⟨_, _, m, hdm, f, hf, ⟨_, rfl⟩ | ⟨_, _, rfl⟩ | ⟨_, _, g, rest, s3, hq, hts, rfl⟩⟩
  · exact hi.quiet rfl (by simp [fate]) (fun _ h => h) (fun _ => rfl) stay
  · exact hi.quiet rfl (by simp [fate]) (fun _ h => h) (fun _ => rfl) stay
  · injection hdm with hdm
    subst hdm
    refine hi.quiet rfl (by simp [fate]) (fun _ h => h) (fun _ => rfl) (fun x => ?_)
    by_cases hx : x = d
    · subst hx
      simp only [if_true]
      refine ⟨trivial, Or.inl trivial, fun g hg => ?_⟩
      rcases List.mem_append.mp hg with h | h
      · exact Or.inl h
      · rw [List.mem_singleton] at h; subst h; exact Or.inr ⟨_, _, _, hf⟩
    · simp only [if_neg hx]; exact ⟨trivial, Or.inl trivial, fun _ h => Or.inl h⟩
  · injection hdm with hdm
    subst hdm
    have hall : ∀ e ∈ (s.dev d).queue ++ [f], FrameFor E (peer d) e := by
      intro e he
      rcases List.mem_append.mp he with h | h
      · exact hi.queue d e h
      · rw [List.mem_singleton] at h; subst h; exact ⟨_, _, _, hf⟩
    rw [hq] at hall
    have h1 := hi.quiet (s' := { s with
          dev := fun x => if x = d then { s.dev d with queue := rest } else s.dev x,
          log := s.log ++ [(s.now, .macTx d f), (s.now, .promiscSniffer d g), (s.now, .sniffer d g)] })
      rfl (by simp [fate]) (fun _ h => h) (fun _ => rfl) (fun x => by
        by_cases hx : x = d
        · subst hx
          simp only [if_true]
          exact ⟨trivial, Or.inl trivial, fun e he => Or.inr (hall e (List.mem_cons_of_mem _ he))⟩
        · simp only [if_neg hx]; exact ⟨trivial, Or.inl trivial, fun _ h => Or.inl h⟩)
    have h2 := direct_start h1 hm (hall g (List.mem_cons_self ..)) hts
    exact h2.quiet rfl (by simp [fate]) (fun _ h => h) (fun _ => rfl) (fun x => ⟨rfl, Or.inl rfl, fun _ h => Or.inl h⟩)

theorem direct_complete {E : Env} {peer : DevId → Mac48} {s0 s s' : Sys} {t : Time} {ps : List Pending} {d : DevId} {dest : Addr}
    (hp : s.pending = ⟨t, .txComplete d dest⟩ :: ps) (hi : Direct E peer s0 s)
    (h : transmitComplete E { s with now := t, pending := ps } d dest = .ok s') : Direct E peer s0 s' := by
  obtain ⟨rfl, hm⟩ := hi.comp t d dest (by rw [hp]; exact List.mem_cons_self ..)
  obtain ⟨_, _, f, _, ⟨hq, rfl⟩ | ⟨p, rest, hq, hts⟩⟩ := transmitComplete_ok h
  · refine hi.quiet rfl (by simp [fate]) (fun q hq => by rw [hp]; exact List.mem_cons_of_mem _ hq) (fun _ => rfl) (fun x => ?_)
    by_cases hx : x = d
    · subst hx; simp only [if_true]; exact ⟨trivial, Or.inl trivial, fun _ h => Or.inl h⟩
    · simp only [if_neg hx]; exact ⟨trivial, Or.inl trivial, fun _ h => Or.inl h⟩
  · simp only at hq
    have h1 := hi.quiet (s' := { s with
          dev := fun y => if y = d then { s.dev d with busy := false, cur := none, queue := rest } else s.dev y,
          now := t, pending := ps,
          log := s.log ++ [(t, .phyTxEnd d f), (t, .sniffer d p), (t, .promiscSniffer d p)] })
      rfl (by simp [fate]) (fun q hq => by rw [hp]; exact List.mem_cons_of_mem _ hq) (fun _ => rfl) (fun x => by
        by_cases hx : x = d
        · subst hx
          simp only [if_true]
          exact ⟨trivial, Or.inl trivial, fun e he => Or.inl (by rw [hq]; exact List.mem_cons_of_mem _ he)⟩
        · simp only [if_neg hx]; exact ⟨trivial, Or.inl trivial, fun _ h => Or.inl h⟩)
    exact direct_start h1 hm (hi.queue d p (by rw [hq]; exact List.mem_cons_self ..)) hts

theorem direct_receive {E : Env} {peer : DevId → Mac48} {s0 s s' : Sys} {t : Time} {ps : List Pending} {d src : DevId} {f : Bytes} {rx : Power}
    (hp : s.pending = ⟨t, .receive d f src rx⟩ :: ps) (hi : Direct E peer s0 s)
    (h : receive E { s with now := t, pending := ps } d f src rx = .ok s') : Direct E peer s0 s' := by
  have hf := hi.recv t d f src rx (by rw [hp]; exact List.mem_cons_self ..)
  obtain ⟨l, rfl, r⟩ := tally_receive h
  have heq := r.eq (fun p proto a b hd => by rw [hf.decode hd]; exact (hi.addr d).symm)
  have hsub : ∀ q ∈ ps, q ∈ s.pending := fun q hq => by rw [hp]; exact List.mem_cons_of_mem _ hq
  refine ⟨hi.kind, hi.addr, hi.isl, hi.queue, fun t x dest hm => hi.comp t x dest (hsub _ hm),
    fun t x f src rx hm => hi.recv t x f src rx (hsub _ hm), ?_, ?_⟩
  · simp only [tally_append, r.no .begun (by simp), r.no .phyTxDrop (by simp), r.no .copied (by simp)]
    exact hi.begun
  · have := hi.heard
    simp only [tally_append]
    omega

theorem direct_step {E : Env} {peer : DevId → Mac48} {s0 s s' : Sys} {op : Op} (hi : Direct E peer s0 s) (ho : OnePeer s0 peer [op])
    (h : step E s op = .ok s') : Direct E peer s0 s' := by
  have quiet : ∀ s' : Sys, (∃ l, s'.log = s.log ++ l ∧ ∀ e ∈ l, fate e.2 = none) → s'.pending = s.pending → (∀ c, (s'.chan c).kind = (s.chan c).kind) →
      (∀ x, (s'.dev x).addr = (s.dev x).addr ∧ (s'.dev x).chan = (s.dev x).chan ∧ (s'.dev x).queue = (s.dev x).queue) → Direct E peer s0 s' :=
    fun s' ⟨l, h1, h2⟩ h3 hk h4 => hi.quiet h1 (fun e he => Or.inl (h2 e he)) (fun p hp => by rw [← h3]; exact hp) hk
      (fun x => ⟨(h4 x).1, Or.inl (h4 x).2.1, fun f hf => Or.inl (by rw [← (h4 x).2.2]; exact hf)⟩)
  cases op with
  | send d p dest proto => exact direct_send hi (ho.sends d p dest proto (by simp)) h
  | sendFrom d p a b proto =>
    injection h with h; subst h
    exact quiet _ ⟨_, rfl, by simp [fate]⟩ rfl (fun _ => rfl) (fun x => ⟨rfl, rfl, rfl⟩)
  | attach d c =>
    obtain ⟨g, t, _, rfl⟩ := attach_ok h
    refine hi.quiet rfl (by simp [fate]) (fun _ h => h) (fun x => by by_cases hx : x = c <;> simp [hx]) (fun x => ?_)
    by_cases hx : x = d
    · subst hx
      simp only [if_true]
      refine ⟨trivial, Or.inr (fun c' hc => ?_), fun _ h => Or.inl h⟩
      injection hc with hc
      subst hc
      exact ho.isl x c (by simp)
    · simp only [if_neg hx]; exact ⟨trivial, Or.inl trivial, fun _ h => Or.inl h⟩
  | detach c slot =>
    obtain ⟨g, t, _, ⟨d, _, _, rfl⟩ | ⟨_, rfl⟩⟩ := detach_ok h
    · exact quiet _ ⟨_, rfl, by simp [fate]⟩ rfl (fun x => by by_cases hx : x = c <;> simp [hx]) (fun x => by by_cases hx : x = d <;> simp [hx])
    · exact quiet _ ⟨_, rfl, by simp [fate]⟩ rfl (fun x => by by_cases hx : x = c <;> simp [hx]) (fun x => ⟨rfl, rfl, rfl⟩)
  | setAddress d a => exact absurd (List.mem_singleton.mpr rfl) (ho.fixed d a)
  | run =>
    have h : run E s = .ok s' := h
    unfold run at h
    split at h
    · injection h with h; subst h; exact hi
    · rename_i p ps hp
      obtain ⟨t, a⟩ := p
      cases a with
      | txComplete d dest => exact direct_complete hp hi h
      | receive d f src rx => exact direct_receive hp hi h
  | wait dt =>
    have h : (if s.pending.all (fun p => decide (s.now + dt ≤ p.time)) then .ok { s with now := s.now + dt } else .ok s) = Outcome.ok s' := h
    split at h
    · injection h with h; subst h
      exact quiet _ ⟨[], by simp, by simp⟩ rfl (fun _ => rfl) (fun x => ⟨rfl, rfl, rfl⟩)
    · injection h with h; subst h; exact hi
  | setSide d v | setRate d v | setGap d v | setMtu d v | setTxPower d v | setRxThreshold d v | setRxGain d v | setRxLoss d v | setPromisc d v =>
    injection h with h; subst h
    exact quiet _ ⟨[], by simp [Sys.setDev], by simp⟩ rfl (fun _ => rfl) (fun x => by by_cases hx : x = d <;> simp [Sys.setDev, hx])

theorem direct_exec {E : Env} {peer : DevId → Mac48} {s0 s s' : Sys} {ops : List Op} (hi : Direct E peer s0 s) (ho : OnePeer s0 peer ops)
    (h : exec E s ops = .ok s') : Direct E peer s0 s' := by
  induction ops generalizing s with
  | nil => injection h with h; subst h; exact hi
  | cons op ops ih =>
    obtain ⟨s1, h1, h2⟩ := Outcome.bind_eq_ok.mp h
    refine ih (direct_step hi ⟨?_, ?_, ?_⟩ h1) ⟨?_, ?_, ?_⟩ h2
    · intro d p dest proto hm; exact ho.sends d p dest proto (by rw [List.mem_singleton] at hm; simp [hm])
    · intro d c hm; exact ho.isl d c (by rw [List.mem_singleton] at hm; simp [hm])
    · intro d a hm; exact ho.fixed d a (by rw [List.mem_singleton] at hm; simp [hm])
    · intro d p dest proto hm; exact ho.sends d p dest proto (List.mem_cons_of_mem _ hm)
    · intro d c hm; exact ho.isl d c (List.mem_cons_of_mem _ hm)
    · intro d a hm; exact ho.fixed d a (List.mem_cons_of_mem _ hm)

theorem exists_sendersBelow (ops : List Op) : ∃ n, SendersBelow n ops := by
  induction ops with
  | nil => exact ⟨0, fun d p dest proto hm => by cases hm⟩
  | cons op ops ih =>
    obtain ⟨n, hn⟩ := ih
    cases op with
    | send d p dest proto =>
      refine ⟨max n (d + 1), fun d' p' dest' proto' hm => ?_⟩
      rcases List.mem_cons.mp hm with h | h
      · injection h with h; subst h; exact Nat.lt_of_lt_of_le (Nat.lt_succ_self _) (Nat.le_max_right ..)
      · exact Nat.lt_of_lt_of_le (hn d' p' dest' proto' h) (Nat.le_max_left ..)
    | _ =>
      refine ⟨n, fun d' p' dest' proto' hm => ?_⟩
      rcases List.mem_cons.mp hm with h | h
      · cases h
      · exact hn d' p' dest' proto' h

/-- Without pending events no transmitter is busy, and queues are empty. -/
theorem queue_empty_at_end {E : Env} {s0 s : Sys} {ops : List Op} (h0 : Initial s0) (h : exec E s0 ops = .ok s) (hend : s.pending = []) (d : DevId) :
    (s.dev d).queue = [] := by
  have hi := devInv_exec h0 h d
  cases hb : (s.dev d).busy with
  | false => exact (hi.ready hb).2.1
  | true =>
    obtain ⟨_, _, _, _, ht⟩ := hi.busy hb
    rw [hend] at ht
    cases ht

end Verif
