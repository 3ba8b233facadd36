import Verif.Lemmas.Channel
import Verif.Lemmas.Frame
import Verif.Spec.Proper
/-! Histories that keep the rules never fail. -/

namespace Verif
open Spec

theorem deliver_prog {E : Env} {s : Sys} {c : ChanId} {f : Bytes} {src dst : DevId} {t : Time}
    (h1 : (s.dev src).node ≠ none) (h2 : (s.dev dst).node ≠ none) : ∃ r, deliver E s c f src dst t = .ok r := by
  rw [deliver_eq, if_pos ⟨Option.isSome_iff_ne_none.mpr h1, Option.isSome_iff_ne_none.mpr h2⟩]
  exact ⟨_, rfl⟩

theorem deliverAll_prog {E : Env} {c : ChanId} {f : Bytes} {src : DevId} {t : Time} {ds : List DevId} {s : Sys}
    {r : Bool} (h1 : (s.dev src).node ≠ none) (h2 : ∀ x ∈ ds, (s.dev x).node ≠ none) :
    ∃ r', deliverAll E c f src t ds s r = .ok r' := by
  induction ds generalizing s r with
  | nil => exact ⟨_, rfl⟩
  | cons d ds ih =>
    obtain ⟨⟨s1, ok⟩, hr⟩ := deliver_prog (E := E) (c := c) (f := f) (t := t) h1 (h2 d List.mem_cons_self)
    obtain ⟨rfl, _⟩ := deliver_ok hr
    obtain ⟨r', h⟩ := ih (s := addRecvs s c f src t (recvOf E s c src t d).toList) (r := if ok then true else r)
      (by simpa [addRecvs] using h1) (fun x hx => by simpa [addRecvs] using h2 x (List.mem_cons_of_mem _ hx))
    refine ⟨r', ?_⟩
    simp only [deliverAll, hr, Outcome.ok_bind]
    exact h

theorem deliverOthers_prog {E : Env} {c : ChanId} {f : Bytes} {src : DevId} {slot : Nat} {t : Time}
    {ds : List DevId} {i : Nat} {s : Sys} (h1 : (s.dev src).node ≠ none) (h2 : ∀ x ∈ ds, (s.dev x).node ≠ none) :
    ∃ r', deliverOthers E c f src slot t ds i s = .ok r' := by
  induction ds generalizing i s with
  | nil => exact ⟨_, rfl⟩
  | cons d ds ih =>
    simp only [deliverOthers]
    split
    · exact ih h1 (fun x hx => h2 x (List.mem_cons_of_mem _ hx))
    · obtain ⟨⟨s1, ok⟩, hr⟩ := deliver_prog (E := E) (c := c) (f := f) (t := t) h1 (h2 d List.mem_cons_self)
      obtain ⟨rfl, _⟩ := deliver_ok hr
      obtain ⟨r', h⟩ := ih (i := i + 1) (s := addRecvs s c f src t (recvOf E s c src t d).toList)
        (by simpa [addRecvs] using h1) (fun x hx => by simpa [addRecvs] using h2 x (List.mem_cons_of_mem _ hx))
      refine ⟨r', ?_⟩
      rw [hr]
      exact h

theorem findByAddr_mem {s : Sys} {a : Addr} {l : List DevId} {x : DevId} (h : findByAddr s a l = some x) : x ∈ l := by
  induction l with
  | nil => cases h
  | cons d ds ih =>
    simp only [findByAddr] at h
    split at h
    · injection h with h; subst h; exact List.mem_cons_self
    · exact List.mem_cons_of_mem _ (ih h)

/-- A channel whose members and index entries are all on nodes, no address on both sides. -/
structure ChanFit (s : Sys) (c : ChanId) : Prop where
  link : ∀ x ∈ (s.chan c).link, (s.dev x).node ≠ none
  gnd : (s.chan c).kind = .leo → ∀ e ∈ (s.chan c).gnd, e.2 ∈ (s.chan c).link
  sat : (s.chan c).kind = .leo → ∀ e ∈ (s.chan c).sat, e.2 ∈ (s.chan c).link
  one : (s.chan c).kind = .leo → ∀ x ∈ (s.chan c).link,
    mapHas (s.dev x).addr (s.chan c).gnd = true → mapHas (s.dev x).addr (s.chan c).sat = true → False

theorem chanTransmit_prog {E : Env} {s : Sys} {c : ChanId} {f : Bytes} {slot : Nat} {m : Mac48} {t : Time}
    (hf : ChanFit s c) : ∃ r, chanTransmit E s c f slot (.mac m) t = .ok r := by
  unfold chanTransmit
  split
  · rename_i hk
    unfold leoTransmit
    split
    · exact ⟨_, rfl⟩
    · rename_i src hsrc
      have hin : src ∈ (s.chan c).link := List.mem_of_getElem? hsrc
      simp only
      split
      · rename_i hb
        simp only [Bool.and_eq_true] at hb
        exact (hf.one hk src hin hb.1 hb.2).elim
      · split
        · refine deliverAll_prog (hf.link _ hin) ?_
          intro x hx
          obtain ⟨e, he, rfl⟩ := List.mem_map.mp hx
          exact hf.link _ (hf.sat hk e he)
        · split
          · refine deliverAll_prog (hf.link _ hin) ?_
            intro x hx
            obtain ⟨e, he, rfl⟩ := List.mem_map.mp hx
            exact hf.link _ (hf.gnd hk e he)
          · exact ⟨_, rfl⟩
  · unfold islTransmit
    split
    · exact ⟨_, rfl⟩
    · rename_i src hsrc
      have hin : src ∈ (s.chan c).link := List.mem_of_getElem? hsrc
      split
      · rename_i dst hd
        exact deliver_prog (hf.link _ hin) (hf.link _ (findByAddr_mem hd))
      · simp only
        split
        · obtain ⟨r', h⟩ := deliverOthers_prog (E := E) (c := c) (f := f) (slot := slot) (t := t) (i := 0) (hf.link _ hin) hf.link
          rw [h]
          exact ⟨_, rfl⟩
        · exact ⟨_, rfl⟩

theorem ChanFit.congr {s s' : Sys} {c : ChanId} (h : ChanFit s c) (hc : s'.chan c = s.chan c)
    (hd : ∀ x, (s'.dev x).node = (s.dev x).node ∧ (s'.dev x).addr = (s.dev x).addr) : ChanFit s' c := by
  constructor
  · intro x hx; rw [hc] at hx; rw [(hd x).1]; exact h.link x hx
  · rw [hc]; exact h.gnd
  · rw [hc]; exact h.sat
  · rw [hc]; intro hk x hx; rw [(hd x).2]; exact h.one hk x hx

theorem transmitStart_prog {E : Env} {s : Sys} {d : DevId} {f : Bytes} {m : Mac48} {c : ChanId}
    (hb : (s.dev d).busy = false) (hc : (s.dev d).chan = some c) (hf : ChanFit s c) :
    ∃ r, transmitStart E s d f (.mac m) = .ok r := by
  unfold transmitStart
  simp only [hb, hc]
  obtain ⟨⟨s3, ok⟩, h⟩ := chanTransmit_prog (E := E) (f := f) (slot := (s.dev d).chanSlot) (m := m)
    (t := E.txTime (s.dev d).rate f.length)
    (hf.congr (s' := ((((s.setDev d { s.dev d with busy := true, cur := some f }).emit (.phyTxBegin d f)).schedule
      (E.txTime (s.dev d).rate f.length + (s.dev d).gap) (.txComplete d (.mac m))).emit (.onAir d f (.mac m)))) rfl (by
        intro x
        simp only [Sys.emit, Sys.schedule, Sys.setDev]
        by_cases hx : x = d <;> simp [hx]))
  simp only [hc] at h
  simp only [Bool.false_eq_true, if_false]
  rw [h]
  cases ok <;> exact ⟨_, rfl⟩

theorem transmitComplete_prog {E : Env} {s : Sys} {d : DevId} {f : Bytes} {m : Mac48} {c : ChanId}
    (hb : (s.dev d).busy = true) (hcur : (s.dev d).cur = some f) (hq : (s.dev d).hasQueue = true)
    (hc : (s.dev d).chan = some c) (hf : ChanFit s c) : ∃ r, transmitComplete E s d (.mac m) = .ok r := by
  unfold transmitComplete
  simp only [hb, hcur, hq, Bool.not_true, Bool.false_eq_true, if_false]
  split
  · exact ⟨_, rfl⟩
  · rename_i p rest _
    refine transmitStart_prog (c := c) (by simp [Sys.emit, Sys.setDev]) (by simp [Sys.emit, Sys.setDev, hc])
      (hf.congr rfl ?_)
    intro x
    by_cases hx : x = d <;> simp [hx, Sys.emit, Sys.setDev]

theorem send_prog {E : Env} {s : Sys} {d : DevId} {p : Bytes} {m : Mac48} {proto : UInt16}
    (h : (s.dev d).linkUp = true → (s.dev d).hasQueue = true ∧ ∃ c, (s.dev d).chan = some c ∧ ChanFit s c) :
    ∃ r, send E s d p (.mac m) proto = .ok r := by
  unfold send
  simp only
  split
  · exact ⟨_, rfl⟩
  · rename_i hl
    obtain ⟨hq, c, hc, hf⟩ := h (by simpa using hl)
    simp only [hq, Bool.not_true, Bool.false_eq_true, if_false]
    split
    · split
      · rename_i hb
        have hb' : (s.dev d).busy = false := by simpa using hb
        split
        · rename_i hnil; simp at hnil
        · rename_i g rest hg
          obtain ⟨s3, h3⟩ := transmitStart_prog (E := E) (f := g) (m := m) (c := c) (d := d)
            (s := (((s.emit (.macTx d (addHeader E.fcs p (s.dev d).addr m proto))).setDev d
              { s.dev d with queue := rest }).emit (.promiscSniffer d g)).emit (.sniffer d g))
            (by simpa [Sys.emit, Sys.setDev] using hb') (by simpa [Sys.emit, Sys.setDev] using hc)
            (hf.congr rfl (by intro x; by_cases hx : x = d <;> simp [hx, Sys.emit, Sys.setDev]))
          simp only [hq] at h3
          rw [h3]
          exact ⟨_, rfl⟩
      · exact ⟨_, rfl⟩
    · exact ⟨_, rfl⟩

theorem receive_prog {E : Env} {s : Sys} {d : DevId} {f : Bytes} {src : DevId} {rx : Power}
    (h1 : (s.dev d).rxCb = true) (h2 : ∃ r, decode E.fcs f = .ok r) : ∃ r, receive E s d f src rx = .ok r := by
  cases h : receive E s d f src rx with
  | ok r => exact ⟨r, rfl⟩
  | fail e =>
    obtain ⟨r, hr⟩ := h2
    rcases receive_fail h with h | ⟨_, h⟩
    · rw [hr] at h; cases h
    · rw [h1] at h; cases h

/-- Invariant of histories that keep the rules. -/
structure Fit (E : Env) (s : Sys) : Prop where
  inv : Inv s
  wired : Wired s
  index : ∀ c, IndexInv c s
  equipped : ∀ c, ∀ x ∈ (s.chan c).link, Equipped (s.dev x)
  recv : ∀ p ∈ s.pending, ∀ d f src rx, p.act = .receive d f src rx →
    Equipped (s.dev d) ∧ ∃ r, decode E.fcs f = .ok r
  comp : ∀ p ∈ s.pending, ∀ d dest, p.act = .txComplete d dest → dest ≠ .other
  queue : ∀ d, ∀ f ∈ (s.dev d).queue, ∃ r, decode E.fcs f = .ok r

theorem fit_initial {E : Env} {s : Sys} (h : Initial s) : Fit E s := by
  refine ⟨inv_initial h, wired_initial h, indexInv_initial h, ?_, ?_, ?_, ?_⟩
  · intro c x hx; rw [(h.chans c).1] at hx; cases hx
  · intro p hp; rw [h.pending] at hp; cases hp
  · intro p hp; rw [h.pending] at hp; cases hp
  · intro d f hf; rw [(h.idle d).2.2.1] at hf; cases hf

theorem Fit.chanFit {E : Env} {s : Sys} (h : Fit E s) (c : ChanId) : ChanFit s c := by
  have hi := h.index c
  refine ⟨fun x hx => (h.equipped c x hx).node, ?_, ?_, ?_⟩
  · rintro hk ⟨a, x⟩ he
    rw [hi.link]
    exact hi.sub _ ((hi.gnd hk a x).mp he).1
  · rintro hk ⟨a, x⟩ he
    rw [hi.link]
    exact hi.sub _ ((hi.sat hk a x).mp he).1
  · intro hk x hx hg hsat
    rw [mapHas_iff, List.mem_map] at hg hsat
    obtain ⟨⟨a, y⟩, hy, hya⟩ := hg
    obtain ⟨⟨a', z⟩, hz, hza⟩ := hsat
    obtain ⟨g1, g2, g3⟩ := (hi.gnd hk _ _).mp hy
    obtain ⟨k1, k2, k3⟩ := (hi.sat hk _ _).mp hz
    simp only at hya hza
    have : y = z := hi.inj y (hi.sub y g1) z (hi.sub z k1) (by rw [← g3, ← k3, hya, hza])
    subst this
    rw [g2] at k2; cases k2

/-- Progress: in an invariant state, an operation that keeps the rules succeeds. -/
theorem fit_progress {E : Env} {s : Sys} {op : Op} (h : Fit E s) (hp : Proper s op) : ∃ s', step E s op = .ok s' := by
  have att : ∀ d, ((s.dev d).linkUp = true ∨ (s.dev d).busy = true) →
      Equipped (s.dev d) ∧ ∃ c, (s.dev d).chan = some c := by
    intro d hd
    have := (h.inv.dev d).chan hd
    obtain ⟨c, hc⟩ := Option.isSome_iff_exists.mp this
    exact ⟨h.equipped c d (List.mem_of_getElem? (h.wired d c hc)), c, hc⟩
  cases op with
  | send d p dest proto =>
    obtain ⟨_, h1, h2⟩ := hp
    cases dest with
    | other => exact (h1 rfl).elim
    | mac m =>
      refine send_prog fun hl => ?_
      obtain ⟨he, c, hc⟩ := att d (Or.inl hl)
      exact ⟨he.queue, c, hc, h.chanFit c⟩
  | attach d c =>
    obtain ⟨_, h1, h2⟩ := hp
    simp only [step, attach]
    cases hk : (s.chan c).kind with
    | isl => exact ⟨_, rfl⟩
    | leo =>
      simp only [h2 hk, Bool.not_true, Bool.false_eq_true, if_false]
      cases (s.dev d).side <;> exact ⟨_, rfl⟩
  | detach c slot =>
    obtain ⟨_, h1⟩ := hp
    simp only [step, detach]
    cases hk : (s.chan c).kind with
    | isl => exact ⟨_, rfl⟩
    | leo =>
      have := h1 hk
      rw [← (h.index c).link] at this
      simp only [List.getElem?_eq_getElem this]
      exact ⟨_, rfl⟩
  | setAddress d a =>
    cases a with
    | other => exact (hp.2 rfl).elim
    | mac m => exact ⟨_, rfl⟩
  | run =>
    simp only [step, run]
    split
    · exact ⟨_, rfl⟩
    · rename_i p ps hps
      obtain ⟨t, a⟩ := p
      have hmem : (⟨t, a⟩ : Pending) ∈ s.pending := by rw [hps]; exact List.mem_cons_self
      cases a with
      | receive d f src rx =>
        obtain ⟨h1, h2⟩ := h.recv _ hmem d f src rx rfl
        exact receive_prog h1.callback h2
      | txComplete d dest =>
        have hbusy : (s.dev d).busy = true := by
          by_contra hb
          have hb' : (s.dev d).busy = false := by simpa using hb
          have := ((h.inv.dev d).ready hb').2.2
          rw [hps, txc_cons] at this
          simp at this
        obtain ⟨f, _, _, hcur, _⟩ := (h.inv.dev d).busy hbusy
        obtain ⟨he, c, hc⟩ := att d (Or.inr hbusy)
        cases dest with
        | other => exact (h.comp _ hmem d _ rfl rfl).elim
        | mac m => exact transmitComplete_prog hbusy hcur he.queue hc ((h.chanFit c).congr rfl fun _ => ⟨rfl, rfl⟩)
  | wait dt =>
    simp only [step]
    split <;> exact ⟨_, rfl⟩
  | _ => exact ⟨_, rfl⟩

theorem equipped_step {E : Env} {s s' : Sys} {op : Op} (h : step E s op = .ok s') (x : DevId) :
    Equipped (s.dev x) → Equipped (s'.dev x) := by
  intro he
  rcases cfg_step h with hc | ⟨d, c, rfl⟩
  · obtain ⟨_, _, h1, _, h2, h3⟩ := hc x
    exact ⟨by rw [h1]; exact he.node, by rw [h2]; exact he.queue, by rw [h3]; exact he.callback⟩
  · obtain ⟨g, t, _, rfl⟩ := attach_ok h
    by_cases hx : x = d
    · subst hx; exact ⟨by simpa using he.node, by simpa using he.queue, by simpa using he.callback⟩
    · simpa [hx] using he

theorem decode_sendsFrame {E : Env} {s : Sys} {op : Op} {d : DevId} {dest : Addr} {f : Bytes} (hp : Proper s op)
    (h : SendsFrame E s op d dest f) : dest ≠ .other ∧ ∃ r, decode E.fcs f = .ok r := by
  obtain ⟨p, proto, m, rfl, rfl, rfl⟩ := h
  obtain ⟨_, h1, h2⟩ := hp
  refine ⟨h1, ?_⟩
  rw [decode_addHeader]
  split
  · exact ⟨_, rfl⟩
  · rw [if_neg (by omega)]; exact ⟨_, rfl⟩

/-- Preservation. -/
theorem fit_step {E : Env} {s s' : Sys} {op : Op} (h : Fit E s) (hp : Proper s op) (hs : step E s op = .ok s') :
    Fit E s' := by
  have hinv := inv_step h.inv hs
  have hw := wired_step h.wired hs
  have hidx : ∀ c, IndexInv c s' := fun c => indexInv_step (h.index c) hp.1 hs
  have heq : ∀ c, ∀ x ∈ (s'.chan c).link, Equipped (s'.dev x) := by
    intro c x hx
    apply equipped_step hs
    rcases chan_step hs with h1 | ⟨d, c', rfl⟩ | ⟨c', slot, rfl⟩
    · rw [h1] at hx; exact h.equipped c x hx
    · obtain ⟨g, t, _, rfl⟩ := attach_ok hs
      by_cases hc : c = c'
      · subst hc
        simp only [if_true, List.mem_append, List.mem_singleton] at hx
        rcases hx with hx | rfl
        · exact h.equipped c x hx
        · exact hp.2.1
      · simp only [hc, if_false] at hx
        exact h.equipped c x hx
    · obtain ⟨g, t, _, hs⟩ := detach_ok hs
      have : x ∈ (s.chan c).link := by
        rcases hs with ⟨d, _, _, rfl⟩ | ⟨_, rfl⟩ <;> by_cases hc : c = c' <;> simpa [hc] using hx
      exact h.equipped c x this
  refine ⟨hinv, hw, hidx, heq, ?_, ?_, ?_⟩
  · intro p hpm d f src rx ha
    have old : p ∈ s.pending → Equipped (s'.dev d) ∧ ∃ r, decode E.fcs f = .ok r := fun hm =>
      ⟨equipped_step hs d (h.recv p hm d f src rx ha).1, (h.recv p hm d f src rx ha).2⟩
    cases netStep_step h.inv h.wired hs with
    | quiet l hlog hl hpe =>
      rcases hpe with hpe | ⟨d', dest, hpe⟩
      · exact old (hpe ▸ hpm)
      · exact old (by rw [hpe]; exact List.mem_cons_of_mem _ hpm)
    | recv d' f' src' rx' l hop hpe hlog hl hd hc hcall => exact old (by rw [hpe]; exact List.mem_cons_of_mem _ hpm)
    | tx d' f' dest c rs b ps l1 l2 hchan hrs hb hps hpe hlog hl1 hl2 hd hc =>
      rw [hpe, mem_insertAll, mem_insertPending] at hpm
      rcases hpm with hpm | rfl | hpm
      · obtain ⟨r, hr, rfl⟩ := List.mem_map.mp hpm
        simp only [Recv.pend, Action.receive.injEq] at ha
        obtain ⟨rfl, rfl, rfl, rfl⟩ := ha
        constructor
        · rw [hrs] at hr
          obtain ⟨x, hx, hxr⟩ := List.mem_filterMap.mp hr
          have hxd := recvOf_dst hxr
          subst hxd
          have hcf := h.chanFit c
          apply equipped_step hs
          apply h.equipped c
          unfold audience at hx
          simp only at hx
          split at hx
          · cases hx
          · split at hx
            · rename_i hk
              split at hx
              · obtain ⟨e, he, hex⟩ := List.mem_map.mp hx
                rw [← hex]; exact hcf.sat hk e he
              · split at hx
                · obtain ⟨e, he, hex⟩ := List.mem_map.mp hx
                  rw [← hex]; exact hcf.gnd hk e he
                · cases hx
            · split at hx
              · rename_i dst hdst
                rw [List.mem_singleton.mp hx]
                exact List.mem_of_find?_eq_some hdst
              · split at hx
                · exact List.mem_of_mem_eraseIdx hx
                · cases hx
        · rcases hps with ⟨_, _, hsf⟩ | ⟨_, _, rest, hq⟩
          · exact (decode_sendsFrame hp hsf).2
          · exact h.queue _ _ (by rw [hq]; exact List.mem_cons_self)
      · cases ha
      · rcases hps with ⟨rfl, _, _⟩ | ⟨_, hps, _⟩
        · exact old hpm
        · exact old (by rw [hps]; exact List.mem_cons_of_mem _ hpm)
  · intro p hpm d dest ha
    have old : p ∈ s.pending → dest ≠ .other := fun hm => h.comp p hm d dest ha
    cases netStep_step h.inv h.wired hs with
    | quiet l hlog hl hpe =>
      rcases hpe with hpe | ⟨d', dest, hpe⟩
      · exact old (hpe ▸ hpm)
      · exact old (by rw [hpe]; exact List.mem_cons_of_mem _ hpm)
    | recv d' f' src' rx' l hop hpe hlog hl hd hc hcall => exact old (by rw [hpe]; exact List.mem_cons_of_mem _ hpm)
    | tx d' f' dest' c rs b ps l1 l2 hchan hrs hb hps hpe hlog hl1 hl2 hd hc =>
      rw [hpe, mem_insertAll, mem_insertPending] at hpm
      rcases hpm with hpm | rfl | hpm
      · obtain ⟨r, hr, rfl⟩ := List.mem_map.mp hpm
        simp [Recv.pend] at ha
      · simp only [Action.txComplete.injEq] at ha
        obtain ⟨rfl, rfl⟩ := ha
        rcases hps with ⟨_, _, hsf⟩ | ⟨_, hps, rest, hq⟩
        · exact (decode_sendsFrame hp hsf).1
        · exact h.comp ⟨s'.now, .txComplete d' dest'⟩ (by rw [hps]; exact List.mem_cons_self) d' dest' rfl
      · rcases hps with ⟨rfl, _, _⟩ | ⟨_, hps, _⟩
        · exact old hpm
        · exact old (by rw [hps]; exact List.mem_cons_of_mem _ hpm)
  · intro d f hf
    cases devStep_step h.inv.dev hs d with
    | keep acc hb hc ht hacc hq hl =>
      rw [hq] at hf
      rcases List.mem_append.mp hf with hf | hf
      · exact h.queue d f hf
      · rcases hacc with rfl | ⟨_, dest, g, rfl, hsf⟩
        · cases hf
        · rw [List.mem_singleton.mp hf]; exact (decode_sendsFrame hp hsf).2
    | start g dest hop hb hb' hc hq ht hl => rw [hq] at hf; cases hf
    | stop g dest hb hb' hc hq hq' ht hl => rw [hq'] at hf; cases hf
    | next f' g dest rest hb hb' hc hc' hq hq' ht ht' hl =>
      rw [hq'] at hf
      exact h.queue d f (by rw [hq]; exact List.mem_cons_of_mem _ hf)

theorem properRun_cons {E : Env} {s s1 : Sys} {op : Op} {ops : List Op} (h : ProperRun E s (op :: ops))
    (h1 : step E s op = .ok s1) : ProperRun E s1 ops := by
  rintro o1 op' o2 s2 rfl h2
  exact h (op :: o1) op' o2 s2 rfl (by simp [exec, h1, h2])

theorem fit_exec {E : Env} {s : Sys} {ops : List Op} (h : Fit E s) (hp : ProperRun E s ops) :
    ∃ s', exec E s ops = .ok s' ∧ Fit E s' := by
  induction ops generalizing s with
  | nil => exact ⟨s, rfl, h⟩
  | cons op ops ih =>
    have hop := hp [] op ops s rfl rfl
    obtain ⟨s1, h1⟩ := fit_progress h hop
    obtain ⟨s', h2, h3⟩ := ih (fit_step h hop h1) (properRun_cons hp h1)
    exact ⟨s', by simp [exec, h1, h2], h3⟩

end Verif
