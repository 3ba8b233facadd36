import Verif.Spec.Isolation
import Verif.Lemmas.NetTx
/-!
# Networks that share a simulation: the view of one of them
-/

namespace Verif

open Spec

variable {G : Group}

/-- The state is split between the group and the rest. -/
structure Split (G : Group) (s : Sys) : Prop where
  sorted : s.pending.Pairwise (fun a b => a.time ≤ b.time)
  link : ∀ c, ∀ d ∈ (s.chan c).link, G.dev d = G.chan c
  gnd : ∀ c, ∀ x ∈ (s.chan c).gnd, G.dev x.2 = G.chan c
  sat : ∀ c, ∀ x ∈ (s.chan c).sat, G.dev x.2 = G.chan c
  chan : ∀ d c, (s.dev d).chan = some c → G.dev d = G.chan c
  recv : ∀ p ∈ s.pending, ∀ d f src rx, p.act = .receive d f src rx → G.dev d = G.dev src

/-- Both together. -/
structure Rel (G : Group) (s t : Sys) : Prop where
  split : Split G s
  view : G.View s t

theorem insertPending_front {p : Pending} {l : List Pending} (h : ∀ b ∈ l, p.time < b.time) : insertPending p l = p :: l := by
  cases l with
  | nil => rfl
  | cons b m => simp only [insertPending, h b (by simp), if_true]

theorem insertPending_cons {p a : Pending} {l : List Pending} (h : ¬ p.time < a.time) :
    insertPending p (a :: l) = a :: insertPending p l := by
  simp only [insertPending, h, if_false]

theorem insert_filter (q : Pending → Bool) (p : Pending) {l : List Pending} (hs : l.Pairwise (fun a b => a.time ≤ b.time)) :
    (insertPending p l).filter q = if q p then insertPending p (l.filter q) else l.filter q := by
  induction l with
  | nil => by_cases h : q p <;> simp [insertPending, h]
  | cons a l ih =>
    rw [List.pairwise_cons] at hs
    by_cases ht : p.time < a.time
    · have hall : ∀ b ∈ a :: l, p.time < b.time := by
        intro b hb
        rcases List.mem_cons.mp hb with rfl | hb
        · exact ht
        · exact Nat.lt_of_lt_of_le ht (hs.1 b hb)
      rw [insertPending_front hall, insertPending_front fun b hb => hall b (List.mem_filter.mp hb).1]
      by_cases h : q p
      · rw [List.filter_cons_of_pos h, if_pos h]
      · rw [List.filter_cons_of_neg h, if_neg h]
    · rw [insertPending_cons ht]
      by_cases ha : q a
      · rw [List.filter_cons_of_pos ha, List.filter_cons_of_pos ha, ih hs.2, insertPending_cons ht]
        by_cases h : q p
        · rw [if_pos h, if_pos h]
        · rw [if_neg h, if_neg h]
      · rw [List.filter_cons_of_neg ha, List.filter_cons_of_neg ha, ih hs.2]

theorem Rel.emit_in {s t : Sys} (h : Rel G s t) {e : Ev} (he : G.ev e = true := by assumption) : Rel G (s.emit e) (t.emit e) := by
  refine ⟨⟨h.1.1, h.1.2, h.1.3, h.1.4, h.1.5, h.1.6⟩, ⟨h.2.1, h.2.2, h.2.3, h.2.4, ?_⟩⟩
  simp [Sys.emit, h.2.5, h.2.3, he]

theorem Rel.emit_out {s t : Sys} (h : Rel G s t) {e : Ev} (he : G.ev e = false := by assumption) : Rel G (s.emit e) t := by
  refine ⟨⟨h.1.1, h.1.2, h.1.3, h.1.4, h.1.5, h.1.6⟩, ⟨h.2.1, h.2.2, h.2.3, h.2.4, ?_⟩⟩
  simp [Sys.emit, h.2.5, he]

theorem Rel.setDev_in {s t : Sys} (h : Rel G s t) {d : DevId} {v : Dev}
    (hv : ∀ c, v.chan = some c → G.dev d = G.chan c) : Rel G (s.setDev d v) (t.setDev d v) := by
  refine ⟨⟨h.1.1, h.1.2, h.1.3, h.1.4, ?_, h.1.6⟩, ⟨?_, h.2.2, h.2.3, h.2.4, h.2.5⟩⟩
  · intro x c hx
    simp only [Sys.setDev] at hx
    split at hx
    · rename_i hxd; subst hxd; exact hv c hx
    · exact h.1.5 x c hx
  · intro x hx
    simp only [Sys.setDev]
    split
    · rfl
    · exact h.2.1 x hx

theorem Rel.setDev_out {s t : Sys} (h : Rel G s t) {d : DevId} {v : Dev} (hd : G.dev d = false)
    (hv : ∀ c, v.chan = some c → G.dev d = G.chan c) : Rel G (s.setDev d v) t := by
  refine ⟨⟨h.1.1, h.1.2, h.1.3, h.1.4, ?_, h.1.6⟩, ⟨?_, h.2.2, h.2.3, h.2.4, h.2.5⟩⟩
  · intro x c hx
    simp only [Sys.setDev] at hx
    split at hx
    · rename_i hxd; subst hxd; exact hv c hx
    · exact h.1.5 x c hx
  · intro x hx
    simp only [Sys.setDev]
    split
    · rename_i hxd; subst hxd; rw [hd] at hx; cases hx
    · exact h.2.1 x hx

theorem Rel.put_in {s t : Sys} (h : Rel G s t) {d : DevId} {v : Dev} (hv : v.chan = (s.dev d).chan := by rfl) :
    Rel G (s.setDev d v) (t.setDev d v) := h.setDev_in fun c hc => h.1.5 d c (hv ▸ hc)

theorem Rel.put_out {s t : Sys} (h : Rel G s t) {d : DevId} {v : Dev} (hd : G.dev d = false := by assumption)
    (hv : v.chan = (s.dev d).chan := by rfl) : Rel G (s.setDev d v) t := h.setDev_out hd fun c hc => h.1.5 d c (hv ▸ hc)

/-- The devices of the channel lie on its side. -/
def ChanOk (G : Group) (c : ChanId) (v : Chan) : Prop :=
  (∀ d ∈ v.link, G.dev d = G.chan c) ∧ (∀ x ∈ v.gnd, G.dev x.2 = G.chan c) ∧ ∀ x ∈ v.sat, G.dev x.2 = G.chan c

theorem Split.setChan {s : Sys} (h : Split G s) {c : ChanId} {v : Chan} (hv : ChanOk G c v) : Split G (s.setChan c v) := by
  have key : ∀ x, ChanOk G x ((s.setChan c v).chan x) := by
    intro x
    simp only [Sys.setChan]
    split
    · rename_i hx; subst hx; exact hv
    · exact ⟨h.2 x, h.3 x, h.4 x⟩
  exact ⟨h.1, fun x => (key x).1, fun x => (key x).2.1, fun x => (key x).2.2, h.5, h.6⟩

theorem Rel.setChan_in {s t : Sys} (h : Rel G s t) {c : ChanId} {v : Chan} (hv : ChanOk G c v) :
    Rel G (s.setChan c v) (t.setChan c v) := by
  refine ⟨h.1.setChan hv, ⟨h.2.1, ?_, h.2.3, h.2.4, h.2.5⟩⟩
  intro x hx
  simp only [Sys.setChan]
  split
  · rfl
  · exact h.2.2 x hx

theorem Rel.setChan_out {s t : Sys} (h : Rel G s t) {c : ChanId} {v : Chan} (hc : G.chan c = false) (hv : ChanOk G c v) :
    Rel G (s.setChan c v) t := by
  refine ⟨h.1.setChan hv, ⟨h.2.1, ?_, h.2.3, h.2.4, h.2.5⟩⟩
  intro x hx
  simp only [Sys.setChan]
  split
  · rename_i hxc; subst hxc; rw [hc] at hx; cases hx
  · exact h.2.2 x hx

theorem Split.schedule {s : Sys} (h : Split G s) {del : Time} {a : Action}
    (ha : ∀ d f src rx, a = .receive d f src rx → G.dev d = G.dev src) : Split G (s.schedule del a) := by
  refine ⟨sorted_insertPending h.1, h.2, h.3, h.4, h.5, ?_⟩
  intro p hp d f src rx he
  rcases mem_insertPending.mp hp with rfl | hp
  · exact ha d f src rx he
  · exact h.6 p hp d f src rx he

theorem Rel.schedule_in {s t : Sys} (h : Rel G s t) {del : Time} {a : Action} (hin : G.act a = true)
    (ha : ∀ d f src rx, a = .receive d f src rx → G.dev d = G.dev src) : Rel G (s.schedule del a) (t.schedule del a) := by
  refine ⟨h.1.schedule ha, ⟨h.2.1, h.2.2, h.2.3, ?_, h.2.5⟩⟩
  simp only [Sys.schedule]
  rw [insert_filter _ _ h.1.1, if_pos hin, h.2.4, h.2.3]

theorem Rel.schedule_out {s t : Sys} (h : Rel G s t) {del : Time} {a : Action} (hin : G.act a = false)
    (ha : ∀ d f src rx, a = .receive d f src rx → G.dev d = G.dev src) : Rel G (s.schedule del a) t := by
  refine ⟨h.1.schedule ha, ⟨h.2.1, h.2.2, h.2.3, ?_, h.2.5⟩⟩
  simp only [Sys.schedule]
  rw [insert_filter _ _ h.1.1, if_neg (by simp [hin]), h.2.4]


/-- No reception at stake: a completion. -/
theorem txComplete_ok {d : DevId} {dest : Addr} : ∀ x f src rx, Action.txComplete d dest = .receive x f src rx → G.dev x = G.dev src := by
  intro _ _ _ _ h; cases h

theorem receive_same {dst src : DevId} {f : Bytes} {rx : Power} (h : G.dev dst = G.dev src) :
    ∀ x g y r, Action.receive dst f src rx = .receive x g y r → G.dev x = G.dev y := by
  intro _ _ _ _ he; injection he with h1 _ h2 _; subst h1; subst h2; exact h

theorem Rel.deliver_in {E : Env} {s t s' : Sys} (h : Rel G s t) {c : ChanId} {f : Bytes} {src dst : DevId} {T : Time} {b : Bool}
    (hs : G.dev src = true) (hd : G.dev dst = true) (hc : G.chan c = true)
    (hr : deliver E s c f src dst T = .ok (s', b)) : ∃ t', deliver E t c f src dst T = .ok (t', b) ∧ Rel G s' t' := by
  rw [deliver_eq] at hr ⊢
  have hrec : recvOf E t c src T dst = recvOf E s c src T dst := by
    unfold recvOf; rw [h.2.1 src hs, h.2.1 dst hd, h.2.3]
  rw [h.2.1 src hs, h.2.1 dst hd, hrec]
  split at hr
  · rename_i hn
    rw [if_pos hn]
    injection hr with hr; injection hr with h1 h2
    subst h1; subst h2
    refine ⟨_, rfl, ?_⟩
    cases hx : recvOf E s c src T dst with
    | none => simpa [addRecvs, insertAll] using h
    | some r =>
      have := recvOf_dst hx
      subst this
      exact (h.schedule_in (a := .receive r.dst f src r.power) hd (receive_same (by rw [hs, hd]))).emit_in (e := .txrx c f src r.dst T r.delay) hc
  · cases hr

theorem Rel.deliver_out {E : Env} {s t s' : Sys} (h : Rel G s t) {c : ChanId} {f : Bytes} {src dst : DevId} {T : Time} {b : Bool}
    (hs : G.dev src = false) (hd : G.dev dst = false) (hc : G.chan c = false)
    (hr : deliver E s c f src dst T = .ok (s', b)) : Rel G s' t := by
  obtain ⟨rfl, -⟩ := deliver_ok hr
  cases hx : recvOf E s c src T dst with
  | none => simpa [addRecvs, insertAll] using h
  | some r =>
    have := recvOf_dst hx
    subst this
    exact (h.schedule_out (a := .receive r.dst f src r.power) hd (receive_same (by rw [hs, hd]))).emit_out (e := .txrx c f src r.dst T r.delay) hc

theorem Rel.deliverAll_in {E : Env} {c : ChanId} {f : Bytes} {src : DevId} {T : Time} {b : Bool}
    (hs : G.dev src = true) (hc : G.chan c = true) (l : List DevId) (hd : ∀ d ∈ l, G.dev d = true) {s t s' : Sys} (h : Rel G s t)
    {r : Bool} (hr : deliverAll E c f src T l s r = .ok (s', b)) :
    ∃ t', deliverAll E c f src T l t r = .ok (t', b) ∧ Rel G s' t' := by
  induction l generalizing s t r with
  | nil =>
    injection hr with hr; injection hr with h1 h2
    subst h1; subst h2
    exact ⟨t, rfl, h⟩
  | cons d l ih =>
    simp only [deliverAll] at hr ⊢
    rw [Outcome.bind_eq_ok] at hr
    obtain ⟨⟨s1, ok⟩, h1, h2⟩ := hr
    obtain ⟨t1, h3, h4⟩ := h.deliver_in hs (hd d (by simp)) hc h1
    rw [h3]
    exact ih (fun x hx => hd x (by simp [hx])) h4 h2

theorem Rel.deliverAll_out {E : Env} {c : ChanId} {f : Bytes} {src : DevId} {T : Time} {b : Bool}
    (hs : G.dev src = false) (hc : G.chan c = false) (l : List DevId) (hd : ∀ d ∈ l, G.dev d = false) {s t s' : Sys} (h : Rel G s t)
    {r : Bool} (hr : deliverAll E c f src T l s r = .ok (s', b)) : Rel G s' t := by
  induction l generalizing s t r with
  | nil =>
    injection hr with hr; injection hr with h1 h2
    subst h1
    exact h
  | cons d l ih =>
    simp only [deliverAll] at hr
    rw [Outcome.bind_eq_ok] at hr
    obtain ⟨⟨s1, ok⟩, h1, h2⟩ := hr
    exact ih (fun x hx => hd x (by simp [hx])) (h.deliver_out hs (hd d (by simp)) hc h1) h2

theorem Rel.deliverOthers_in {E : Env} {c : ChanId} {f : Bytes} {src : DevId} {T : Time} {slot : Nat}
    (hs : G.dev src = true) (hc : G.chan c = true) (l : List DevId) (hd : ∀ d ∈ l, G.dev d = true) {s t s' : Sys} (h : Rel G s t)
    {i : Nat} (hr : deliverOthers E c f src slot T l i s = .ok s') :
    ∃ t', deliverOthers E c f src slot T l i t = .ok t' ∧ Rel G s' t' := by
  induction l generalizing s t i with
  | nil =>
    injection hr with hr
    subst hr
    exact ⟨t, rfl, h⟩
  | cons d l ih =>
    simp only [deliverOthers] at hr ⊢
    split at hr
    · rename_i hi
      rw [if_pos hi]
      exact ih (fun x hx => hd x (by simp [hx])) h hr
    · rename_i hi
      rw [if_neg hi]
      rw [Outcome.bind_eq_ok] at hr
      obtain ⟨⟨s1, ok⟩, h1, h2⟩ := hr
      obtain ⟨t1, h3, h4⟩ := h.deliver_in hs (hd d (by simp)) hc h1
      rw [h3]
      exact ih (fun x hx => hd x (by simp [hx])) h4 h2

theorem Rel.deliverOthers_out {E : Env} {c : ChanId} {f : Bytes} {src : DevId} {T : Time} {slot : Nat}
    (hs : G.dev src = false) (hc : G.chan c = false) (l : List DevId) (hd : ∀ d ∈ l, G.dev d = false) {s t s' : Sys} (h : Rel G s t)
    {i : Nat} (hr : deliverOthers E c f src slot T l i s = .ok s') : Rel G s' t := by
  induction l generalizing s t i with
  | nil =>
    injection hr with hr
    subst hr
    exact h
  | cons d l ih =>
    simp only [deliverOthers] at hr
    split at hr
    · exact ih (fun x hx => hd x (by simp [hx])) h hr
    · rw [Outcome.bind_eq_ok] at hr
      obtain ⟨⟨s1, ok⟩, h1, h2⟩ := hr
      exact ih (fun x hx => hd x (by simp [hx])) (h.deliver_out hs (hd d (by simp)) hc h1) h2

theorem of_findByAddr {s : Sys} {a : Addr} {l : List DevId} {d : DevId} (h : findByAddr s a l = some d) : d ∈ l := by
  induction l with
  | nil => cases h
  | cons x l ih =>
    simp only [findByAddr] at h
    split at h
    · injection h with h; subst h; simp
    · exact List.mem_cons_of_mem _ (ih h)

theorem findByAddr_view {s t : Sys} (h : Rel G s t) {a : Addr} {l : List DevId} (hl : ∀ d ∈ l, G.dev d = true) :
    findByAddr t a l = findByAddr s a l := by
  induction l with
  | nil => rfl
  | cons x l ih =>
    simp only [findByAddr]
    rw [h.2.1 x (hl x (by simp)), ih fun d hd => hl d (by simp [hd])]

theorem Rel.chanTransmit_in {E : Env} {s t s' : Sys} (h : Rel G s t) {c : ChanId} {f : Bytes} {slot : Nat} {dest : Addr}
    {T : Time} {b : Bool} (hc : G.chan c = true) (hr : chanTransmit E s c f slot dest T = .ok (s', b)) :
    ∃ t', chanTransmit E t c f slot dest T = .ok (t', b) ∧ Rel G s' t' := by
  have hlink : ∀ d ∈ (s.chan c).link, G.dev d = true := fun d hd => by rw [h.1.2 c d hd, hc]
  unfold chanTransmit at hr ⊢
  rw [h.2.2 c hc]
  split at hr
  · unfold leoTransmit at hr ⊢
    rw [h.2.2 c hc]
    split at hr
    · injection hr with hr; injection hr with h1 h2
      subst h1; subst h2
      exact ⟨t, rfl, h⟩
    · rename_i src hsrc
      have hs : G.dev src = true := hlink src (List.mem_of_getElem? hsrc)
      try simp only at hr ⊢
      rw [h.2.1 src hs]
      split at hr
      · cases hr
      · rename_i h1
        rw [if_neg h1]
        split at hr
        · rename_i h2
          rw [if_pos h2]
          refine h.deliverAll_in hs hc _ ?_ hr
          intro d hd
          obtain ⟨x, hx, rfl⟩ := List.mem_map.mp hd
          rw [h.1.4 c x hx, hc]
        · rename_i h2
          rw [if_neg h2]
          split at hr
          · rename_i h3
            rw [if_pos h3]
            refine h.deliverAll_in hs hc _ ?_ hr
            intro d hd
            obtain ⟨x, hx, rfl⟩ := List.mem_map.mp hd
            rw [h.1.3 c x hx, hc]
          · rename_i h3
            rw [if_neg h3]
            injection hr with hr; injection hr with h1 h2
            subst h1; subst h2
            exact ⟨t, rfl, h⟩
  · unfold islTransmit at hr ⊢
    rw [h.2.2 c hc]
    split at hr
    · injection hr with hr; injection hr with h1 h2
      subst h1; subst h2
      exact ⟨t, rfl, h⟩
    · rename_i src hsrc
      have hs : G.dev src = true := hlink src (List.mem_of_getElem? hsrc)
      try simp only at hr ⊢
      rw [findByAddr_view h hlink]
      split at hr
      · rename_i dst hdst
        exact h.deliver_in hs (hlink dst (of_findByAddr hdst)) hc hr
      · split at hr
        · cases hr
        · rename_i m
          try simp only at hr ⊢
          split at hr
          · rename_i hm
            rw [if_pos hm]
            rw [Outcome.bind_eq_ok] at hr
            obtain ⟨s1, h1, h2⟩ := hr
            injection h2 with h2; injection h2 with h2 h3
            subst h2; subst h3
            obtain ⟨t1, h4, h5⟩ := h.deliverOthers_in hs hc _ hlink h1
            rw [h4]
            exact ⟨t1, rfl, h5⟩
          · rename_i hm
            rw [if_neg hm]
            injection hr with hr; injection hr with h1 h2
            subst h1; subst h2
            exact ⟨t, rfl, h⟩

theorem Rel.chanTransmit_out {E : Env} {s t s' : Sys} (h : Rel G s t) {c : ChanId} {f : Bytes} {slot : Nat} {dest : Addr}
    {T : Time} {b : Bool} (hc : G.chan c = false) (hr : chanTransmit E s c f slot dest T = .ok (s', b)) : Rel G s' t := by
  have hlink : ∀ d ∈ (s.chan c).link, G.dev d = false := fun d hd => by rw [h.1.2 c d hd, hc]
  unfold chanTransmit at hr
  split at hr
  · unfold leoTransmit at hr
    split at hr
    · injection hr with hr; injection hr with h1 h2
      subst h1
      exact h
    · rename_i src hsrc
      have hs : G.dev src = false := hlink src (List.mem_of_getElem? hsrc)
      try simp only at hr
      split at hr
      · cases hr
      · split at hr
        · refine h.deliverAll_out hs hc _ ?_ hr
          intro d hd
          obtain ⟨x, hx, rfl⟩ := List.mem_map.mp hd
          rw [h.1.4 c x hx, hc]
        · split at hr
          · refine h.deliverAll_out hs hc _ ?_ hr
            intro d hd
            obtain ⟨x, hx, rfl⟩ := List.mem_map.mp hd
            rw [h.1.3 c x hx, hc]
          · injection hr with hr; injection hr with h1 h2
            subst h1
            exact h
  · unfold islTransmit at hr
    split at hr
    · injection hr with hr; injection hr with h1 h2
      subst h1
      exact h
    · rename_i src hsrc
      have hs : G.dev src = false := hlink src (List.mem_of_getElem? hsrc)
      try simp only at hr
      split at hr
      · rename_i dst hdst
        exact h.deliver_out hs (hlink dst (of_findByAddr hdst)) hc hr
      · split at hr
        · cases hr
        · split at hr
          · rw [Outcome.bind_eq_ok] at hr
            obtain ⟨s1, h1, h2⟩ := hr
            injection h2 with h2; injection h2 with h2 h3
            subst h2
            exact h.deliverOthers_out hs hc _ hlink h1
          · injection hr with hr; injection hr with h1 h2
            subst h1
            exact h

theorem Rel.transmitStart_in {E : Env} {s t s' : Sys} (h : Rel G s t) {d : DevId} {f : Bytes} {dest : Addr}
    (hd : G.dev d = true) (hr : transmitStart E s d f dest = .ok s') :
    ∃ t', transmitStart E t d f dest = .ok t' ∧ Rel G s' t' := by
  unfold transmitStart at hr ⊢
  rw [h.2.1 d hd]
  try simp only at hr ⊢
  split at hr
  · cases hr
  · rename_i hb
    rw [if_neg hb]
    split at hr
    · cases hr
    · rename_i c hc
      rw [hc]
      try simp only
      rw [Outcome.bind_eq_ok] at hr
      obtain ⟨⟨s3, ok⟩, h1, h2⟩ := hr
      have hgc : G.chan c = true := by rw [← h.1.5 d c hc, hd]
      have h3 : Rel G ((((s.setDev d { s.dev d with busy := true, cur := some f }).emit (.phyTxBegin d f)).schedule
          (E.txTime (s.dev d).rate f.length + (s.dev d).gap) (.txComplete d dest)).emit (.onAir d f dest))
          ((((t.setDev d { s.dev d with busy := true, cur := some f }).emit (.phyTxBegin d f)).schedule
          (E.txTime (s.dev d).rate f.length + (s.dev d).gap) (.txComplete d dest)).emit (.onAir d f dest)) :=
        (((h.put_in).emit_in).schedule_in (a := .txComplete d dest) hd txComplete_ok).emit_in
      obtain ⟨t3, h4, h5⟩ := h3.chanTransmit_in hgc h1
      simp only [hc] at h4
      rw [h4]
      cases ok with
      | true => injection h2 with h2; subst h2; exact ⟨t3, rfl, h5⟩
      | false => injection h2 with h2; subst h2; exact ⟨_, rfl, h5.emit_in⟩

theorem Rel.transmitStart_out {E : Env} {s t s' : Sys} (h : Rel G s t) {d : DevId} {f : Bytes} {dest : Addr}
    (hd : G.dev d = false) (hr : transmitStart E s d f dest = .ok s') : Rel G s' t := by
  unfold transmitStart at hr
  try simp only at hr
  split at hr
  · cases hr
  · split at hr
    · cases hr
    · rename_i c hc
      rw [Outcome.bind_eq_ok] at hr
      obtain ⟨⟨s3, ok⟩, h1, h2⟩ := hr
      have hgc : G.chan c = false := by rw [← h.1.5 d c hc, hd]
      have h3 : Rel G ((((s.setDev d { s.dev d with busy := true, cur := some f }).emit (.phyTxBegin d f)).schedule
          (E.txTime (s.dev d).rate f.length + (s.dev d).gap) (.txComplete d dest)).emit (.onAir d f dest)) t :=
        (((h.put_out).emit_out).schedule_out (a := .txComplete d dest) hd txComplete_ok).emit_out
      have h5 := h3.chanTransmit_out hgc h1
      cases ok with
      | true => injection h2 with h2; subst h2; exact h5
      | false => injection h2 with h2; subst h2; exact h5.emit_out

theorem Rel.complete_in {E : Env} {s t s' : Sys} (h : Rel G s t) {d : DevId} {dest : Addr}
    (hd : G.dev d = true) (hr : transmitComplete E s d dest = .ok s') :
    ∃ t', transmitComplete E t d dest = .ok t' ∧ Rel G s' t' := by
  unfold transmitComplete at hr ⊢
  rw [h.2.1 d hd]
  try simp only at hr ⊢
  split at hr
  · cases hr
  · rename_i hb
    rw [if_neg hb]
    split at hr
    · cases hr
    · rename_i f hf
      try simp only at hr ⊢
      split at hr
      · cases hr
      · rename_i hq
        rw [if_neg hq]
        have h1 : Rel G ((s.setDev d { s.dev d with busy := false, cur := none }).emit (.phyTxEnd d f))
            ((t.setDev d { s.dev d with busy := false, cur := none }).emit (.phyTxEnd d f)) :=
          (h.put_in).emit_in
        split at hr
        · injection hr with hr; subst hr; exact ⟨_, rfl, h1⟩
        · exact ((((h1.put_in (by simp [Sys.setDev, Sys.emit])).emit_in).emit_in).transmitStart_in hd hr)

theorem Rel.complete_out {E : Env} {s t s' : Sys} (h : Rel G s t) {d : DevId} {dest : Addr}
    (hd : G.dev d = false) (hr : transmitComplete E s d dest = .ok s') : Rel G s' t := by
  unfold transmitComplete at hr
  try simp only at hr
  split at hr
  · cases hr
  · split at hr
    · cases hr
    · rename_i f hf
      try simp only at hr
      split at hr
      · cases hr
      · have h1 : Rel G ((s.setDev d { s.dev d with busy := false, cur := none }).emit (.phyTxEnd d f)) t :=
          (h.put_out).emit_out
        split at hr
        · injection hr with hr; subst hr; exact h1
        · exact ((((h1.put_out hd (by simp [Sys.setDev, Sys.emit])).emit_out).emit_out).transmitStart_out hd hr)

theorem Rel.send_in {E : Env} {s t s' : Sys} (h : Rel G s t) {d : DevId} {p : Bytes} {dest : Addr} {proto : UInt16}
    (hd : G.dev d = true) (hr : send E s d p dest proto = .ok s') :
    ∃ t', send E t d p dest proto = .ok t' ∧ Rel G s' t' := by
  unfold send at hr ⊢
  rw [h.2.1 d hd]
  try simp only at hr ⊢
  split at hr
  · rename_i hl
    rw [if_pos hl]
    injection hr with hr; subst hr
    exact ⟨_, rfl, (h.emit_in).emit_in⟩
  · rename_i hl
    rw [if_neg hl]
    split at hr
    · cases hr
    · rename_i m
      try simp only at hr ⊢
      split at hr
      · cases hr
      · rename_i hq
        rw [if_neg hq]
        split at hr
        · rename_i hcap
          rw [if_pos hcap]
          split at hr
          · rename_i hb
            rw [if_pos hb]
            split at hr
            · cases hr
            · rename_i g rest hg
              try simp only at hr ⊢
              rw [Outcome.bind_eq_ok] at hr
              obtain ⟨s3, h1, h2⟩ := hr
              injection h2 with h2; subst h2
              have h3 := ((((h.emit_in (e := .macTx d (addHeader E.fcs p (s.dev d).addr m proto))).put_in (d := d)
                (v := { s.dev d with queue := rest })).emit_in (e := .promiscSniffer d g)).emit_in
                (e := .sniffer d g))
              obtain ⟨t3, h4, h5⟩ := h3.transmitStart_in hd h1
              rw [h4]
              exact ⟨_, rfl, h5.emit_in⟩
          · rename_i hb
            rw [if_neg hb]
            injection hr with hr; subst hr
            exact ⟨_, rfl, ((h.emit_in).put_in).emit_in⟩
        · rename_i hcap
          rw [if_neg hcap]
          injection hr with hr; subst hr
          exact ⟨_, rfl, ((h.emit_in).emit_in).emit_in⟩

theorem Rel.send_out {E : Env} {s t s' : Sys} (h : Rel G s t) {d : DevId} {p : Bytes} {dest : Addr} {proto : UInt16}
    (hd : G.dev d = false) (hr : send E s d p dest proto = .ok s') : Rel G s' t := by
  unfold send at hr
  try simp only at hr
  split at hr
  · injection hr with hr; subst hr
    exact (h.emit_out).emit_out
  · split at hr
    · cases hr
    · rename_i m
      try simp only at hr
      split at hr
      · cases hr
      · split at hr
        · split at hr
          · split at hr
            · cases hr
            · rename_i g rest hg
              try simp only at hr
              rw [Outcome.bind_eq_ok] at hr
              obtain ⟨s3, h1, h2⟩ := hr
              injection h2 with h2; subst h2
              have h3 := ((((h.emit_out (e := .macTx d (addHeader E.fcs p (s.dev d).addr m proto))).put_out (d := d)
                (v := { s.dev d with queue := rest })).emit_out (e := .promiscSniffer d g)).emit_out
                (e := .sniffer d g))
              exact (h3.transmitStart_out hd h1).emit_out
          · injection hr with hr; subst hr
            exact ((h.emit_out).put_out).emit_out
        · injection hr with hr; subst hr
          exact ((h.emit_out).emit_out).emit_out


theorem Rel.receive_in {E : Env} (hE : Steady E) {s t s' : Sys} (h : Rel G s t) {d : DevId} {f : Bytes} {src : DevId} {rx : Power}
    (hd : G.dev d = true) (hr : receive E s d f src rx = .ok s') :
    ∃ t', receive E t d f src rx = .ok t' ∧ Rel G s' t' := by
  have hdev : (t.emit (.recvCall d f src rx)).dev d = (s.emit (.recvCall d f src rx)).dev d := h.2.1 d hd
  have hnow : (t.emit (.recvCall d f src rx)).now = (s.emit (.recvCall d f src rx)).now := h.2.3
  have h1 : Rel G (s.emit (.recvCall d f src rx)) (t.emit (.recvCall d f src rx)) := h.emit_in
  unfold receive at hr ⊢
  try simp only at hr ⊢
  rw [hdev, hnow, hE d _ (t.emit (.recvCall d f src rx)).log.length (s.emit (.recvCall d f src rx)).log.length f]
  generalize s.emit (.recvCall d f src rx) = s1 at *
  generalize t.emit (.recvCall d f src rx) = t1 at *
  split at hr
  · rename_i hs
    rw [if_pos hs]
    injection hr with hr; subst hr
    exact ⟨_, rfl, h1.emit_in⟩
  · rename_i hs
    rw [if_neg hs]
    split at hr
    · rename_i hp
      rw [if_pos hp]
      injection hr with hr; subst hr
      exact ⟨_, rfl, h1.emit_in.emit_in⟩
    · rename_i hp
      rw [if_neg hp]
      split at hr
      · rename_i hco
        rw [if_pos hco]
        injection hr with hr; subst hr
        exact ⟨_, rfl, h1.emit_in.emit_in⟩
      · rename_i hco
        rw [if_neg hco]
        rw [Outcome.bind_eq_ok] at hr
        obtain ⟨r, hdec, hr⟩ := hr
        rw [hdec]
        simp only [Outcome.ok_bind]
        split at hr
        · injection hr with hr; subst hr
          exact ⟨_, rfl, h1.emit_in.emit_in⟩
        · rename_i p proto sa da
          have h2 : Rel G (if (s1.dev d).promiscCb = true then
                (((s1.emit (.phyRxEnd d f)).emit (.promiscSniffer d f)).emit (.macPromiscRx d f)).emit
                  (.promiscCallback d p proto sa da (packetType da (s1.dev d).addr))
              else (s1.emit (.phyRxEnd d f)).emit (.promiscSniffer d f))
              (if (s1.dev d).promiscCb = true then
                (((t1.emit (.phyRxEnd d f)).emit (.promiscSniffer d f)).emit (.macPromiscRx d f)).emit
                  (.promiscCallback d p proto sa da (packetType da (s1.dev d).addr))
              else (t1.emit (.phyRxEnd d f)).emit (.promiscSniffer d f)) := by
            split
            · exact h1.emit_in.emit_in.emit_in.emit_in
            · exact h1.emit_in.emit_in
          split at hr
          · rename_i hty
            rw [if_pos hty]
            injection hr with hr; subst hr
            exact ⟨_, rfl, h2⟩
          · rename_i hty
            rw [if_neg hty]
            split at hr
            · rename_i hcb
              rw [if_pos hcb]
              injection hr with hr; subst hr
              exact ⟨_, rfl, h2.emit_in.emit_in⟩
            · cases hr

theorem Rel.receive_out {E : Env} {s t s' : Sys} (h : Rel G s t) {d : DevId} {f : Bytes} {src : DevId} {rx : Power}
    (hd : G.dev d = false) (hr : receive E s d f src rx = .ok s') : Rel G s' t := by
  have h1 : Rel G (s.emit (.recvCall d f src rx)) t := h.emit_out
  unfold receive at hr
  try simp only at hr
  generalize s.emit (.recvCall d f src rx) = s1 at *
  split at hr
  · injection hr with hr; subst hr
    exact h1.emit_out
  · split at hr
    · injection hr with hr; subst hr
      exact h1.emit_out.emit_out
    · split at hr
      · injection hr with hr; subst hr
        exact h1.emit_out.emit_out
      · rw [Outcome.bind_eq_ok] at hr
        obtain ⟨r, hdec, hr⟩ := hr
        split at hr
        · injection hr with hr; subst hr
          exact h1.emit_out.emit_out
        · rename_i p proto sa da
          have h2 : Rel G (if (s1.dev d).promiscCb = true then
                (((s1.emit (.phyRxEnd d f)).emit (.promiscSniffer d f)).emit (.macPromiscRx d f)).emit
                  (.promiscCallback d p proto sa da (packetType da (s1.dev d).addr))
              else (s1.emit (.phyRxEnd d f)).emit (.promiscSniffer d f)) t := by
            split
            · exact h1.emit_out.emit_out.emit_out.emit_out
            · exact h1.emit_out.emit_out
          try simp only at hr
          split at hr
          · injection hr with hr; subst hr
            exact h2
          · split at hr
            · injection hr with hr; subst hr
              exact h2.emit_out.emit_out
            · cases hr

theorem of_mem_mapInsert {a : Mac48} {d : DevId} {l : List (Mac48 × DevId)} {x : Mac48 × DevId} (h : x ∈ mapInsert a d l) :
    x = (a, d) ∨ x ∈ l := by
  induction l with
  | nil => simpa [mapInsert] using h
  | cons y l ih =>
    obtain ⟨b, e⟩ := y
    simp only [mapInsert] at h
    split at h
    · rcases List.mem_cons.mp h with h | h
      · exact Or.inl h
      · exact Or.inr (List.mem_cons_of_mem _ h)
    · split at h
      · rcases List.mem_cons.mp h with h | h
        · exact Or.inl h
        · exact Or.inr h
      · rcases List.mem_cons.mp h with h | h
        · exact Or.inr (by rw [h]; simp)
        · rcases ih h with h | h
          · exact Or.inl h
          · exact Or.inr (List.mem_cons_of_mem _ h)

theorem Split.chanOk {s : Sys} (h : Split G s) (c : ChanId) : ChanOk G c (s.chan c) := ⟨h.2 c, h.3 c, h.4 c⟩

/-- The three ways of attaching. -/
theorem attach_shape {s s' : Sys} {d : DevId} {c : ChanId} (h : attach s d c = .ok s') (hdc : G.dev d = G.chan c)
    (hs : Split G s) :
    ∃ v : Chan, ChanOk G c v ∧ (∀ t : Sys, t.dev d = s.dev d → t.chan c = s.chan c → attach t d c =
      .ok ((((t.setChan c v).setDev d
      { s.dev d with chan := some c, chanSlot := (s.chan c).link.length, linkUp := true }).emit (.linkChange d)).emit
      (.attachRet d c (s.chan c).link.length))) := by
  obtain ⟨h1, h2, h3⟩ := hs.chanOk c
  have hl : ∀ x ∈ (s.chan c).link ++ [d], G.dev x = G.chan c := by
    intro x hx
    rcases List.mem_append.mp hx with hx | hx
    · exact h1 x hx
    · rw [List.mem_singleton] at hx; subst hx; exact hdc
  unfold attach at h
  simp only at h
  cases hk : (s.chan c).kind with
  | isl =>
    refine ⟨{ s.chan c with link := (s.chan c).link ++ [d] }, ⟨hl, h2, h3⟩, ?_⟩
    intro t ht hc
    unfold attach
    simp only [ht, hc, hk]
  | leo =>
    simp only [hk] at h
    cases hleo : (s.dev d).leo with
    | false => simp [hleo] at h
    | true =>
      cases hside : (s.dev d).side with
      | gnd =>
        refine ⟨{ s.chan c with gnd := mapInsert (s.dev d).addr d (s.chan c).gnd, link := (s.chan c).link ++ [d] }, ⟨hl, ?_, h3⟩, ?_⟩
        · intro x hx
          rcases of_mem_mapInsert hx with rfl | hx
          · exact hdc
          · exact h2 x hx
        · intro t ht hc
          unfold attach
          simp [ht, hc, hk, hleo, hside]
      | sat =>
        refine ⟨{ s.chan c with sat := mapInsert (s.dev d).addr d (s.chan c).sat, link := (s.chan c).link ++ [d] }, ⟨hl, h2, ?_⟩, ?_⟩
        · intro x hx
          rcases of_mem_mapInsert hx with rfl | hx
          · exact hdc
          · exact h3 x hx
        · intro t ht hc
          unfold attach
          simp [ht, hc, hk, hleo, hside]

theorem Rel.attach_in {s t s' : Sys} (h : Rel G s t) {d : DevId} {c : ChanId} (hd : G.dev d = true) (hc : G.chan c = true)
    (hr : attach s d c = .ok s') : ∃ t', attach t d c = .ok t' ∧ Rel G s' t' := by
  obtain ⟨v, hv, hall⟩ := attach_shape hr (by rw [hd, hc]) h.1
  have := hall s rfl rfl
  rw [hr] at this
  injection this with this; subst this
  refine ⟨_, hall t (h.2.1 d hd) (h.2.2 c hc), ?_⟩
  refine Rel.emit_in (Rel.emit_in ((h.setChan_in hv).setDev_in ?_))
  intro x hx
  injection hx with hx; subst hx; rw [hd, hc]

theorem Rel.attach_out {s t s' : Sys} (h : Rel G s t) {d : DevId} {c : ChanId} (hd : G.dev d = false) (hc : G.chan c = false)
    (hr : attach s d c = .ok s') : Rel G s' t := by
  obtain ⟨v, hv, hall⟩ := attach_shape hr (by rw [hd, hc]) h.1
  have := hall s rfl rfl
  rw [hr] at this
  injection this with this; subst this
  refine Rel.emit_out (Rel.emit_out ((h.setChan_out hc hv).setDev_out hd ?_))
  intro x hx
  injection hx with hx; subst hx; rw [hd, hc]

theorem Rel.baseDetach_in {s t : Sys} (h : Rel G s t) {c : ChanId} {slot : Nat} (hc : G.chan c = true) :
    (baseDetach t c slot).2 = (baseDetach s c slot).2 ∧ Rel G (baseDetach s c slot).1 (baseDetach t c slot).1 := by
  unfold baseDetach
  rw [h.2.2 c hc]
  cases hl : (s.chan c).link[slot]? with
  | none => exact ⟨rfl, h⟩
  | some d =>
    have hd : G.dev d = true := by rw [h.1.2 c d (List.mem_of_getElem? hl), hc]
    simp only
    rw [h.2.1 d hd]
    split
    · exact ⟨rfl, h⟩
    · exact ⟨rfl, h.put_in.emit_in⟩

theorem Rel.baseDetach_out {s t : Sys} (h : Rel G s t) {c : ChanId} {slot : Nat} (hc : G.chan c = false) :
    Rel G (baseDetach s c slot).1 t := by
  unfold baseDetach
  cases hl : (s.chan c).link[slot]? with
  | none => exact h
  | some d =>
    have hd : G.dev d = false := by rw [h.1.2 c d (List.mem_of_getElem? hl), hc]
    simp only
    split
    · exact h
    · exact h.put_out.emit_out

theorem of_mem_mapErase {a : Mac48} {l : List (Mac48 × DevId)} {x : Mac48 × DevId} (h : x ∈ mapErase a l) : x ∈ l :=
  (List.mem_filter.mp h).1

theorem Rel.detach_in {s t s' : Sys} (h : Rel G s t) {c : ChanId} {slot : Nat} (hc : G.chan c = true)
    (hr : detach s c slot = .ok s') : ∃ t', detach t c slot = .ok t' ∧ Rel G s' t' := by
  unfold detach at hr ⊢
  rw [h.2.2 c hc]
  split at hr
  · obtain ⟨h1, h2⟩ := h.baseDetach_in (slot := slot) hc
    injection hr with hr; subst hr
    simp only [h1]
    exact ⟨_, rfl, h2.emit_in⟩
  · split at hr
    · cases hr
    · rename_i d hl
      have hd : G.dev d = true := by rw [h.1.2 c d (List.mem_of_getElem? hl), hc]
      rw [h.2.1 d hd]
      injection hr with hr; subst hr
      have h3 : Rel G (s.setChan c { s.chan c with gnd := mapErase (s.dev d).addr (s.chan c).gnd, sat := mapErase (s.dev d).addr (s.chan c).sat })
          (t.setChan c { s.chan c with gnd := mapErase (s.dev d).addr (s.chan c).gnd, sat := mapErase (s.dev d).addr (s.chan c).sat }) :=
        h.setChan_in ⟨h.1.2 c, fun x hx => h.1.3 c x (of_mem_mapErase hx), fun x hx => h.1.4 c x (of_mem_mapErase hx)⟩
      obtain ⟨h1, h2⟩ := h3.baseDetach_in (slot := slot) hc
      simp only at h1 h2
      simp only [h1]
      exact ⟨_, rfl, h2.emit_in⟩

theorem Rel.detach_out {s t s' : Sys} (h : Rel G s t) {c : ChanId} {slot : Nat} (hc : G.chan c = false)
    (hr : detach s c slot = .ok s') : Rel G s' t := by
  unfold detach at hr
  split at hr
  · injection hr with hr; subst hr
    exact (h.baseDetach_out (slot := slot) hc).emit_out
  · split at hr
    · cases hr
    · rename_i d hl
      injection hr with hr; subst hr
      have h3 : Rel G (s.setChan c { s.chan c with gnd := mapErase (s.dev d).addr (s.chan c).gnd, sat := mapErase (s.dev d).addr (s.chan c).sat }) t :=
        h.setChan_out hc ⟨h.1.2 c, fun x hx => h.1.3 c x (of_mem_mapErase hx), fun x hx => h.1.4 c x (of_mem_mapErase hx)⟩
      exact (h3.baseDetach_out (slot := slot) hc).emit_out

/-- The event is taken from the list and the clock set. -/
theorem Rel.pop {s t : Sys} (h : Rel G s t) {p : Pending} {ps : List Pending} (hp : s.pending = p :: ps) :
    Rel G { s with now := p.time, pending := ps }
      { t with now := p.time, pending := ps.filter fun q => G.act q.act } := by
  have hs := h.1.1
  rw [hp, List.pairwise_cons] at hs
  exact ⟨⟨hs.2, h.1.2, h.1.3, h.1.4, h.1.5, fun q hq => h.1.6 q (by rw [hp]; exact List.mem_cons_of_mem _ hq)⟩,
    ⟨h.2.1, h.2.2, rfl, rfl, h.2.5⟩⟩

/-- One operation of the whole system is at most one operation of the group. -/
theorem Rel.step {E : Env} {s t s' : Sys} {op : Op}
    (hE : ∀ p ps d f src rx, op = .run → s.pending = p :: ps → p.act = .receive d f src rx → Steady E)
    (hi : Inv s) (h : Rel G s t) (hk : G.Keeps op)
    (hr : step E s op = .ok s') :
    ∃ ops t', exec E t ops = .ok t' ∧ Rel G s' t' ∧ ops.filter isCall = [op].filter fun o => isCall o && G.op o := by
  have one : ∀ {o : Op} {t' : Sys}, Verif.step E t o = .ok t' → exec E t [o] = .ok t' := by
    intro o t' ho
    simp [exec, ho]
  have dev_in : ∀ {d : DevId} {v : Dev} {o : Op}, G.op o = true → isCall o = true → v.chan = (s.dev d).chan →
      (Verif.step E t o = .ok (t.setDev d v)) →
      ∃ ops t', exec E t ops = .ok t' ∧ Rel G (s.setDev d v) t' ∧ ops.filter isCall = [o].filter fun o => isCall o && G.op o := by
    intro d v o h1 h2 h3 h4
    exact ⟨[o], _, one h4, h.put_in h3, by simp [h1, h2]⟩
  have out : ∀ {o : Op}, G.op o = false → Rel G s' t →
      ∃ ops t', exec E t ops = .ok t' ∧ Rel G s' t' ∧ ops.filter isCall = [o].filter fun o => isCall o && G.op o := by
    intro o h1 h2
    exact ⟨[], t, rfl, h2, by simp [h1]⟩
  cases op with
  | send d p dest proto =>
    cases hd : G.dev d with
    | true =>
      obtain ⟨t', h1, h2⟩ := h.send_in hd hr
      exact ⟨[.send d p dest proto], t', one h1, h2, by simp [isCall, Group.op, hd]⟩
    | false => exact out hd (h.send_out hd hr)
  | sendFrom d p src dest proto =>
    injection hr with hr; subst hr
    cases hd : G.dev d with
    | true => exact ⟨[.sendFrom d p src dest proto], _, one rfl, h.emit_in, by simp [isCall, Group.op, hd]⟩
    | false => exact out hd h.emit_out
  | attach d c =>
    have hk' : G.dev d = G.chan c := hk
    cases hd : G.dev d with
    | true =>
      obtain ⟨t', h1, h2⟩ := h.attach_in hd (by rw [← hk', hd]) hr
      exact ⟨[.attach d c], t', one h1, h2, by simp [isCall, Group.op, hd]⟩
    | false => exact out hd (h.attach_out hd (by rw [← hk', hd]) hr)
  | detach c slot =>
    cases hc : G.chan c with
    | true =>
      obtain ⟨t', h1, h2⟩ := h.detach_in hc hr
      exact ⟨[.detach c slot], t', one h1, h2, by simp [isCall, Group.op, hc]⟩
    | false => exact out hc (h.detach_out hc hr)
  | setAddress d a =>
    cases a with
    | other => cases hr
    | mac m =>
      injection hr with hr; subst hr
      cases hd : G.dev d with
      | true => exact dev_in hd rfl (d := d) rfl (by rw [← h.2.1 d hd]; rfl)
      | false => exact out hd h.put_out
  | setSide d x | setRate d x | setGap d x | setMtu d x | setTxPower d x | setRxThreshold d x | setRxGain d x
  | setRxLoss d x | setPromisc d x =>
    injection hr with hr; subst hr
    cases hd : G.dev d with
    | true => exact dev_in hd rfl (d := d) rfl (by rw [← h.2.1 d hd]; rfl)
    | false => exact out hd h.put_out
  | run =>
    simp only [Verif.step, Verif.run] at hr
    cases hp : s.pending with
    | nil =>
      rw [hp] at hr
      injection hr with hr; subst hr
      exact ⟨[], t, rfl, h, rfl⟩
    | cons p ps =>
      rw [hp] at hr
      simp only at hr
      have h1 := h.pop hp
      have ht : t.pending = if G.act p.act then p :: ps.filter (fun q => G.act q.act) else ps.filter (fun q => G.act q.act) := by
        rw [h.2.4, hp, List.filter_cons]
      have hin : G.act p.act = true → ∀ t', dispatch E { t with now := p.time, pending := ps.filter fun q => G.act q.act } p.act = .ok t' →
          exec E t [.run] = .ok t' := by
        intro ha t' hd
        refine one ?_
        simp only [Verif.step, Verif.run]
        rw [ht, if_pos ha]
        exact hd
      have hout : G.act p.act = false → Rel G s' { t with now := p.time, pending := ps.filter fun q => G.act q.act } →
          ∃ ops t', exec E t ops = .ok t' ∧ Rel G s' t' ∧ ops.filter isCall = [Op.run].filter fun o => isCall o && G.op o := by
        intro ha hrel
        refine ⟨[.wait (p.time - t.now)], _, one ?_, hrel, rfl⟩
        have hle : s.now ≤ p.time := hi.clock.2 p (by rw [hp]; simp)
        have hnow : t.now + (p.time - t.now) = p.time := by rw [h.2.3]; omega
        simp only [Verif.step]
        rw [if_neg (by simp [ha])] at ht
        rw [if_pos, hnow, ← ht]
        rw [List.all_eq_true]
        intro q hq
        rw [hnow, ht] at *
        have hs := h.1.1
        rw [hp, List.pairwise_cons] at hs
        simpa using hs.1 q (List.mem_filter.mp hq).1
      cases hact : p.act with
      | txComplete d dest =>
        rw [hact] at hr hin hout
        cases hd : G.dev d with
        | true =>
          obtain ⟨t', h2, h3⟩ := h1.complete_in hd hr
          exact ⟨[.run], t', hin hd t' h2, h3, rfl⟩
        | false => exact hout hd (h1.complete_out hd hr)
      | receive d f src rx =>
        rw [hact] at hr hin hout
        cases hd : G.dev d with
        | true =>
          obtain ⟨t', h2, h3⟩ := h1.receive_in (hE p ps d f src rx rfl hp hact) hd hr
          exact ⟨[.run], t', hin hd t' h2, h3, rfl⟩
        | false => exact hout hd (h1.receive_out hd hr)
  | wait dt =>
    simp only [Verif.step] at hr
    split at hr
    · rename_i hall
      injection hr with hr; subst hr
      refine ⟨[.wait dt], { t with now := t.now + dt }, one ?_, ⟨⟨h.1.1, h.1.2, h.1.3, h.1.4, h.1.5, h.1.6⟩,
        ⟨h.2.1, h.2.2, ?_, h.2.4, h.2.5⟩⟩, rfl⟩
      · simp only [Verif.step]
        rw [if_pos]
        rw [List.all_eq_true] at hall ⊢
        intro q hq
        rw [h.2.4] at hq
        rw [h.2.3]
        exact hall q (List.mem_filter.mp hq).1
      · show t.now + dt = s.now + dt
        rw [h.2.3]
    · injection hr with hr; subst hr
      exact ⟨[], t, rfl, h, rfl⟩

theorem Rel.exec {E : Env} (hE : Steady E) {ops : List Op} (hk : ∀ op ∈ ops, G.Keeps op) {s t s' : Sys} (hi : Inv s) (h : Rel G s t)
    (hr : exec E s ops = .ok s') :
    ∃ opsG t', Verif.exec E t opsG = .ok t' ∧ Rel G s' t' ∧
      opsG.filter isCall = ops.filter fun o => isCall o && G.op o := by
  induction ops generalizing s t with
  | nil =>
    injection hr with hr; subst hr
    exact ⟨[], t, rfl, h, rfl⟩
  | cons op ops ih =>
    simp only [Verif.exec] at hr
    rw [Outcome.bind_eq_ok] at hr
    obtain ⟨s1, h1, h2⟩ := hr
    obtain ⟨o1, t1, h3, h4, h5⟩ := h.step (fun _ _ _ _ _ _ _ _ _ => hE) hi (hk op (by simp)) h1
    obtain ⟨o2, t2, h6, h7, h8⟩ := ih (fun o ho => hk o (by simp [ho])) (inv_step hi h1) h4 h2
    refine ⟨o1 ++ o2, t2, ?_, h7, ?_⟩
    · rw [exec_append, h3]; exact h6
    · rw [List.filter_append, h5, h8, ← List.filter_append]; rfl

/-- Every split state has a view. -/
theorem Split.rel {s : Sys} (h : Split G s) :
    Rel G s { s with pending := s.pending.filter fun p => G.act p.act, log := s.log.filter fun e => G.ev e.2 } :=
  ⟨h, ⟨fun _ _ => rfl, fun _ _ => rfl, rfl, rfl, rfl⟩⟩

theorem split_step {E : Env} {s s' : Sys} {op : Op} (hi : Inv s) (h : Split G s) (hk : G.Keeps op) (hr : step E s op = .ok s') :
    Split G s' := by
  by_cases hx : ∃ p ps d f src rx, op = .run ∧ s.pending = p :: ps ∧ p.act = .receive d f src rx
  · obtain ⟨p, ps, d, f, src, rx, rfl, hp, ha⟩ := hx
    simp only [Verif.step, Verif.run, hp, ha, dispatch] at hr
    obtain ⟨l, _, rfl⟩ := receive_ok hr
    have := (h.rel.pop hp).1
    exact ⟨this.1, this.2, this.3, this.4, this.5, this.6⟩
  · obtain ⟨_, _, _, h1, _⟩ := h.rel.step (E := E) (fun p ps d f src rx h1 h2 h3 => (hx ⟨p, ps, d, f, src, rx, h1, h2, h3⟩).elim) hi hk hr
    exact h1.1

theorem split_exec {E : Env} {ops : List Op} (hk : ∀ op ∈ ops, G.Keeps op) {s s' : Sys} (hi : Inv s) (h : Split G s)
    (hr : exec E s ops = .ok s') : Split G s' := by
  induction ops generalizing s with
  | nil => injection hr with hr; subst hr; exact h
  | cons op ops ih =>
    simp only [Verif.exec] at hr
    rw [Outcome.bind_eq_ok] at hr
    obtain ⟨s1, h1, h2⟩ := hr
    exact ih (fun o ho => hk o (by simp [ho])) (inv_step hi h1) (split_step hi h (hk op (by simp)) h1) h2

theorem rel_initial {s : Sys} (h : Initial s) : Rel G s s := by
  refine ⟨⟨?_, ?_, ?_, ?_, ?_, ?_⟩, ⟨fun _ _ => rfl, fun _ _ => rfl, rfl, ?_, ?_⟩⟩
  · rw [h.pending]; exact List.Pairwise.nil
  · intro c d hd; rw [(h.chans c).1] at hd; cases hd
  · intro c d hd; rw [(h.chans c).2.1] at hd; cases hd
  · intro c d hd; rw [(h.chans c).2.2] at hd; cases hd
  · intro d c hc; rw [(h.idle d).2.2.2.2] at hc; cases hc
  · intro p hp; rw [h.pending] at hp; cases hp
  · rw [h.pending]; rfl
  · rw [h.log]; rfl

end Verif
