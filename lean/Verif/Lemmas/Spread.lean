import Verif.Lemmas.Flood
import Verif.Spec.Spread
/-! Flooding on its way. -/

namespace Verif
open Spec

/-- Who gets a frame sent to everybody. -/
theorem audience_everybody {E : Env} {s : Sys} (hs : Fit E s) {c : ChanId} {d x : DevId} (hc : (s.dev d).chan = some c) (hne : d ≠ x)
    (hleo : (s.chan c).kind = .leo → d ∈ members c s.log ∧ x ∈ members c s.log ∧ (s.dev x).side ≠ (s.dev d).side)
    (hisl : (s.chan c).kind = .isl → x ∈ slots c s.log ∧ ∀ y ∈ slots c s.log, (s.dev y).addr ≠ Mac48.broadcast) :
    x ∈ audience s c (s.dev d).chanSlot (.mac Mac48.broadcast) := by
  have hi := hs.index c
  cases hk : (s.chan c).kind with
  | leo => exact ((audience_leo hi hk (hs.wired d c hc)).1 x).mpr (hleo hk)
  | isl =>
    obtain ⟨h1, h2⟩ := hisl hk
    rw [← hi.link] at h1 h2
    have hf : (s.chan c).link.find? (fun d => Addr.mac (s.dev d).addr = .mac Mac48.broadcast) = none := by
      rw [List.find?_eq_none]
      intro y hy
      simpa using h2 y hy
    have hw := hs.wired d c hc
    unfold audience
    simp only [hw, hk, hf, if_true]
    rw [List.mem_eraseIdx_iff_getElem?]
    obtain ⟨i, hi'⟩ := List.mem_iff_getElem?.mp h1
    refine ⟨i, ?_, hi'⟩
    intro he
    rw [he, hw] at hi'
    injection hi' with hi'
    exact hne hi'

/-- The packet is under way from `d` to `x`, to be there by `t`. -/
def Coming (E : Env) (s u : Sys) (p : Bytes) (proto : UInt16) (d x : DevId) (t : Time) : Prop :=
  ∃ t' f pw, t' ≤ t ∧ ⟨t', .receive x f d pw⟩ ∈ u.pending ∧
    decode E.fcs f = .ok (.good p proto (s.dev d).addr Mac48.broadcast) ∧ TakesUp (s.dev x) x d Mac48.broadcast pw

/-- The size of the frame of a packet. -/
def frameSize (p : Bytes) : Nat := max 64 (p.length + 26)

/-- An event that follows from sending to everybody on the ports `ds`. -/
def Sent (E : Env) (s : Sys) (p : Bytes) (proto : UInt16) (ds : List DevId) (q : Pending) : Prop :=
  match q.act with
  | .txComplete .. => True
  | .receive x f d pw => d ∈ ds ∧ (∃ m, decode E.fcs f = .ok (.good p proto (s.dev d).addr m)) ∧ Gets E s (frameSize p) d x pw

/-- An event of the flooding. -/
def OfFlood (E : Env) (s : Sys) (ports : NodeId → List DevId) (n0 : NodeId) (p : Bytes) (proto : UInt16) (q : Pending) : Prop :=
  ∃ n, LinkedTo E s (frameSize p) ports n0 n ∧ Sent E s p proto (ports n) q

/-- Whoever gets a frame sent to everybody is attached. -/
theorem audience_attached {E : Env} {s : Sys} (hs : Fit E s) {c : ChanId} {d x : DevId} (hc : (s.dev d).chan = some c) {dest : Addr}
    (hx : x ∈ audience s c (s.dev d).chanSlot dest) :
    ((s.chan c).kind = .leo → d ∈ members c s.log ∧ x ∈ members c s.log ∧ (s.dev x).side ≠ (s.dev d).side) ∧
    ((s.chan c).kind = .isl → x ∈ slots c s.log) := by
  have hi := hs.index c
  constructor
  · intro hk
    exact ((audience_leo hi hk (hs.wired d c hc)).1 x).mp hx
  · intro hk
    rw [← hi.link]
    unfold audience at hx
    simp only [hs.wired d c hc, hk] at hx
    split at hx
    · rename_i y hy
      rw [List.mem_singleton] at hx
      subst hx
      exact List.mem_of_find?_eq_some hy
    · split at hx
      · exact List.mem_of_mem_eraseIdx hx
      · cases hx

/-- A device that is idle sends to everybody. -/
theorem everybody_send {E : Env} {s u : Sys} (hs : Fit E s) (hu : Calm E s u) (hnow : s.now ≤ u.now) {d : DevId} {p : Bytes}
    {proto : UInt16} (hlen : p.length ≤ 1492) (hb : (u.dev d).busy = false) :
    ∃ u', send E u d p (.mac Mac48.broadcast) proto = .ok u' ∧ Calm E s u' ∧ u'.now = u.now ∧ allUps u'.log = allUps u.log ∧
      (∀ q ∈ u.pending, q ∈ u'.pending) ∧ (∀ q ∈ u'.pending, q ∈ u.pending ∨ Sent E s p proto [d] q) ∧
      (∀ y, y ≠ d → (u'.dev y).busy = (u.dev y).busy) ∧
      ∀ x δ T, Lasting E s (frameSize p) T d x δ → u.now ≤ T → Coming E s u' p proto d x (u.now + δ) := by
  have hproper : Proper u (.send d p (.mac Mac48.broadcast) proto) :=
    ⟨True.intro, (by intro h; cases h), (by omega : p.length ≤ 65527)⟩
  obtain ⟨u', h1⟩ := fit_progress hu.fit hproper
  have hf1 := fit_step hu.fit hproper h1
  simp only [step] at h1
  have hsend := h1
  have hups := ups_send h1
  rcases send_ok h1 with ⟨hl, rfl⟩ | ⟨_, _, m', hm', f, hff, ⟨hq, rfl⟩ | ⟨_, hbz, _⟩ | ⟨_, _, g, rest, s3, hg, hts, hs1⟩⟩
  · refine ⟨_, hsend, ⟨hf1, hu.cfg, hu.chan, hu.queue⟩, rfl, hups, fun _ h => h, fun _ h => Or.inl h, fun _ _ => rfl, ?_⟩
    intro x δ T hla
    rw [(hu.cfg _).linkUp, hla.1] at hl
    cases hl
  · refine ⟨_, hsend, ⟨hf1, hu.cfg, hu.chan, hu.queue⟩, rfl, hups, fun _ h => h, fun _ h => Or.inl h, fun _ _ => rfl, ?_⟩
    intro x δ T hla
    rw [hu.queue, (hu.cfg _).cap] at hq
    exact absurd hla.2.1 hq
  · rw [hb] at hbz; cases hbz
  · injection hm' with hm'; subst hm'
    rw [hu.queue] at hg
    injection hg with hg1 hg2
    subst hg1; subst hg2
    have hcfg : ∀ x, SameCfg (if x = d then { u.dev d with queue := [] } else u.dev x) (s.dev x) := by
      intro x
      have hc := hu.cfg x
      obtain ⟨g1, g2, g3, g4, g5, g6, g7, g8, g9, g10, g11, g12, g13, g14, g15, g16, g17, g18⟩ := hc
      by_cases hx : x = d
      · subst hx; simp only [if_true]; exact ⟨g1, g2, g3, g4, g5, g6, g7, g8, g9, g10, g11, g12, g13, g14, g15, g16, g17, g18⟩
      · simp only [hx, if_false]; exact ⟨g1, g2, g3, g4, g5, g6, g7, g8, g9, g10, g11, g12, g13, g14, g15, g16, g17, g18⟩
    obtain ⟨c, rs, b, hc, hrs, _, hs3⟩ := (fun t (hh : transmitStart E t d f (.mac Mac48.broadcast) = .ok s3) hc hh' =>
      tx_view (t := t) hs.wired hc hh' hh) _ hts hcfg hu.chan
    have hflen : f.length = frameSize p := by rw [hff]; exact (C13_frame_layout _ _ _ _ _).2
    have hdec : decode E.fcs f = .ok (.good p proto (s.dev d).addr Mac48.broadcast) := by
      rw [hff, decode_addHeader, if_pos (by omega), (hu.cfg _).addr]
    simp only [hflen] at hrs
    have hpend : u'.pending = s3.pending := by rw [hs1]
    have hperm : u'.pending.Perm (rs.map (Recv.pend u.now f d) ++
        ⟨u.now + (E.txTime (s.dev d).rate (frameSize p) + (s.dev d).gap), .txComplete d (.mac Mac48.broadcast)⟩ :: u.pending) := by
      rw [hpend, hs3]
      simp only [txState, if_true, hflen, (hu.cfg _).rate, (hu.cfg _).gap]
      exact (insertAll_perm _ _).trans (List.Perm.append_left _ (insertPending_perm _ _))
    refine ⟨u', hsend, ⟨hf1, ?_, ?_, ?_⟩, ?_, hups, ?_, ?_, ?_, ?_⟩
    · intro x; rw [hs1, hs3]
      exact sameCfg_txState (E := E) (dest := .mac Mac48.broadcast) (c := c) (src := d) (rs := rs) (b := b) (hcfg x)
    · rw [hs1, hs3]; exact hu.chan
    · intro x
      rw [hs1, hs3]
      by_cases hx : x = d
      · simp [txState, hx]
      · simp [txState, hx, hu.queue x]
    · rw [hs1, hs3]; rfl
    · intro q hq
      exact hperm.mem_iff.mpr (List.mem_append_right _ (List.mem_cons_of_mem _ hq))
    · intro q hq
      rcases List.mem_append.mp (hperm.mem_iff.mp hq) with hq | hq
      · obtain ⟨r, hr, rfl⟩ := List.mem_map.mp hq
        rw [hrs] at hr
        obtain ⟨y, hy, hyr⟩ := List.mem_filterMap.mp hr
        rw [recvOf_eq] at hyr
        obtain ⟨⟨δ, pw⟩, hz, rfl⟩ := Option.map_eq_some_iff.mp hyr
        obtain ⟨b1, b2⟩ := audience_attached hs hc hy
        exact Or.inr ⟨List.mem_singleton_self _, ⟨_, hdec⟩, c, u.now, δ, hc, b1, b2, hnow, hz⟩
      · rcases List.mem_cons.mp hq with rfl | hq
        · exact Or.inr True.intro
        · exact Or.inl hq
    · intro y hy
      rw [hs1, hs3]
      simp [txState, hy]
    · intro x δ T hla hT
      obtain ⟨_, _, c', hc', hne, hleo, hisl, hre⟩ := hla
      rw [hc] at hc'; injection hc' with hc'; subst hc'
      obtain ⟨δ', pw, hδ, hr, hthr⟩ := hre u.now hnow hT
      refine ⟨u.now + δ', f, pw, Nat.add_le_add_left hδ _, ?_, hdec, hne, hthr, Or.inl rfl⟩
      refine hperm.mem_iff.mpr (List.mem_append_left _ (List.mem_map.mpr ⟨⟨x, δ', pw⟩, ?_, rfl⟩))
      rw [hrs]
      refine List.mem_filterMap.mpr ⟨x, audience_everybody hs hc hne hleo hisl, ?_⟩
      rw [recvOf_eq, hr]
      rfl

theorem Sent.mono {E : Env} {s : Sys} {p : Bytes} {proto : UInt16} {ds ds' : List DevId} {q : Pending} (h : Sent E s p proto ds q)
    (hd : ∀ d ∈ ds, d ∈ ds') : Sent E s p proto ds' q := by
  obtain ⟨t, a⟩ := q
  cases a with
  | txComplete => exact True.intro
  | receive => exact ⟨hd _ h.1, h.2⟩

theorem Coming.mono {E : Env} {s u u' : Sys} {p : Bytes} {proto : UInt16} {d x : DevId} {t : Time}
    (h : Coming E s u p proto d x t) (hp : ∀ q ∈ u.pending, q ∈ u'.pending) : Coming E s u' p proto d x t := by
  obtain ⟨t', f, pw, h1, h2, h3⟩ := h
  exact ⟨t', f, pw, h1, hp _ h2, h3⟩

/-- A node sends to everybody. -/
theorem everybody_sendAll {E : Env} {s : Sys} (hs : Fit E s) {p : Bytes} {proto : UInt16} (hlen : p.length ≤ 1492) (ds : List DevId) :
    ∀ {u : Sys}, Calm E s u → s.now ≤ u.now → ds.Nodup → (∀ d ∈ ds, (u.dev d).busy = false) →
    ∃ u', sendAll E (ds.map fun d => (d, p, .mac Mac48.broadcast, proto)) u = .ok u' ∧ Calm E s u' ∧ u'.now = u.now ∧
      allUps u'.log = allUps u.log ∧ (∀ q ∈ u.pending, q ∈ u'.pending) ∧ (∀ q ∈ u'.pending, q ∈ u.pending ∨ Sent E s p proto ds q) ∧
      (∀ y, y ∉ ds → (u'.dev y).busy = (u.dev y).busy) ∧
      ∀ d ∈ ds, ∀ x δ T, Lasting E s (frameSize p) T d x δ → u.now ≤ T → Coming E s u' p proto d x (u.now + δ) := by
  induction ds with
  | nil =>
    intro u hu _ _ _
    exact ⟨u, rfl, hu, rfl, rfl, fun _ h => h, fun _ h => Or.inl h, fun _ _ => rfl, by intro d hd; cases hd⟩
  | cons d ds ih =>
    intro u hu hnow hnd hb
    obtain ⟨hd, hnd⟩ := List.nodup_cons.mp hnd
    obtain ⟨v, h1, h2, h3, h4, h5, h6, h7, h8⟩ := everybody_send hs hu hnow (proto := proto) hlen (hb d List.mem_cons_self)
    obtain ⟨w, g1, g2, g3, g4, g5, g6, g7, g8⟩ := ih h2 (by rw [h3]; exact hnow) hnd (by
      intro y hy
      rw [h7 y (by rintro rfl; exact hd hy)]
      exact hb y (List.mem_cons_of_mem _ hy))
    refine ⟨w, ?_, g2, g3.trans h3, g4.trans h4, fun q hq => g5 q (h5 q hq), ?_, ?_, ?_⟩
    · rw [List.map_cons, sendAll, h1, Outcome.ok_bind, g1]
    · intro q hq
      rcases g6 q hq with hq | hq
      · exact (h6 q hq).imp id fun h => h.mono (by intro y hy; rw [List.mem_singleton.mp hy]; exact List.mem_cons_self)
      · exact Or.inr (hq.mono fun y hy => List.mem_cons_of_mem _ hy)
    · intro y hy
      rw [g7 y (fun h => hy (List.mem_cons_of_mem _ h)), h7 y (fun h => hy (h ▸ List.mem_cons_self))]
    · intro y hy x δ T hla hT
      rcases List.mem_cons.mp hy with rfl | hy
      · exact (h8 x δ T hla hT).mono g5
      · have := g8 y hy x δ T hla (by rw [h3]; exact hT)
        rwa [h3] at this

/-! ### The state of the flooding -/

/-- The node has the packet: it brought it up, or it is among what was passed up. -/
def Has (s : Sys) (n0 : NodeId) (l : List (Time × DevId × Bytes × UInt16 × Mac48)) (n : NodeId) : Prop :=
  n = n0 ∨ ∃ e ∈ l, (s.dev e.2.1).node = some n

/-- What holds while the packet spreads, `l` being what has been passed up. -/
structure Spreading (E : Env) (s : Sys) (ports : NodeId → List DevId) (n0 : NodeId) (p : Bytes) (proto : UInt16)
    (l : List (Time × DevId × Bytes × UInt16 × Mac48)) (u : Sys) : Prop where
  calm : Calm E s u
  now : s.now ≤ u.now
  ups : allUps u.log = allUps s.log ++ l
  news : ∀ e ∈ l, e.2.2.1 = p ∧ e.2.2.2.1 = proto ∧ s.now ≤ e.1
  pend : ∀ q ∈ u.pending, OfFlood E s ports n0 p proto q
  linked : ∀ n, Has s n0 l n → LinkedTo E s (frameSize p) ports n0 n
  origin : ∀ e ∈ l, ∃ n d, LinkedTo E s (frameSize p) ports n0 n ∧ d ∈ ports n ∧ CanHear E s (frameSize p) d e.2.1 ∧ e.2.2.2.2 = (s.dev d).addr
  idle : ∀ n, ¬ Has s n0 l n → ∀ d ∈ ports n, (u.dev d).busy = false
  act : ∀ n, Has s n0 l n → ∃ t0, s.now ≤ t0 ∧ t0 ≤ u.now ∧ (n = n0 → t0 = s.now) ∧
    (n ≠ n0 → ∀ e ∈ l, (s.dev e.2.1).node = some n → t0 ≤ e.1) ∧
    ∀ d ∈ ports n, ∀ x δ T, Lasting E s (frameSize p) T d x δ → t0 ≤ T →
      (∃ t', t' ≤ t0 + δ ∧ (t', x, p, proto, (s.dev d).addr) ∈ l) ∨ Coming E s u p proto d x (t0 + δ)

section
variable {E : Env} {s : Sys} {nodes : List NodeId} {ports : NodeId → List DevId} {n0 : NodeId} {p : Bytes} {proto : UInt16}
  {own : NodeId → Bytes → UInt16 → Bool}

/-- It begins. -/
theorem spreading_start (hs : Fit E s) (hpn : s.pending = []) (hports : PortsOf s nodes ports) (hlen : p.length ≤ 1492) :
    ∃ u, sendAll E (onAll ports n0 p proto) s = .ok u ∧ Spreading E s ports n0 p proto [] u := by
  have hidle : ∀ x, (s.dev x).busy = false := by
    intro x
    cases hb : (s.dev x).busy with
    | false => rfl
    | true =>
      obtain ⟨_, _, _, _, h⟩ := (hs.inv.dev x).busy hb
      rw [hpn] at h
      cases h
  have hcalm : Calm E s s := ⟨hs, fun x => SameCfg.refl _, rfl, fun x => ((hs.inv.dev x).ready (hidle x)).2.1⟩
  obtain ⟨u, h1, h2, h3, h4, _, h6, h7, h8⟩ := everybody_sendAll hs (proto := proto) hlen (ports n0) hcalm (Nat.le_refl _) (hports.once n0)
    (fun d _ => hidle d)
  refine ⟨u, h1, h2, Nat.le_of_eq h3.symm, by rw [h4, List.append_nil], (fun e he => by cases he), ?_, ?_, (fun e he => by cases he), ?_, ?_⟩
  · intro q hq
    rcases h6 q hq with hq | hq
    · rw [hpn] at hq; cases hq
    · exact ⟨n0, .start, hq⟩
  · rintro n (rfl | ⟨e, he, _⟩)
    · exact .start
    · cases he
  · intro n hn d hd
    have hne : n ≠ n0 := fun h => hn (Or.inl h)
    rw [h7 d, hidle d]
    intro hd0
    have e1 := hports.own n d hd
    rw [hports.own n0 d hd0] at e1
    injection e1 with e1
    exact hne e1.symm
  · rintro n (rfl | ⟨e, he, _⟩)
    · exact ⟨s.now, Nat.le_refl _, Nat.le_of_eq h3.symm, fun _ => rfl, fun h => absurd rfl h, fun d hd x δ T hla hT =>
        Or.inr (h8 d hd x δ T hla hT)⟩
    · cases he

theorem not_busy {u : Sys} (hi : ∀ x, DevInv u x) {d : DevId} (h : txc d u.pending = []) : (u.dev d).busy = false := by
  cases hb : (u.dev d).busy with
  | false => rfl
  | true =>
    obtain ⟨_, _, _, _, h'⟩ := (hi d).busy hb
    rw [h] at h'
    cases h'

theorem txc_tail {d : DevId} {q : Pending} {ps : List Pending} (h : txc d (q :: ps) = []) : txc d ps = [] := by
  unfold txc at h ⊢
  rw [List.filterMap_eq_nil_iff] at h ⊢
  intro a ha
  exact h a (List.mem_cons_of_mem _ ha)

theorem heardBy_new {l : List (Time × DevId × Bytes × UInt16 × Mac48)} {u : Sys} {e : Time × DevId × Bytes × UInt16 × Mac48} {n : NodeId}
    (hcfg : ∀ x, (u.dev x).node = (s.dev x).node) (hups : allUps u.log = allUps s.log ++ l ++ [e])
    (hfresh : ∀ e ∈ allUps s.log, ¬ (e.2.2.1 = p ∧ e.2.2.2.1 = proto)) (hl : ∀ e ∈ l, e.2.2.1 = p ∧ e.2.2.2.1 = proto)
    (he : e.2.2.1 = p ∧ e.2.2.2.1 = proto) (hn : (s.dev e.2.1).node = some n) :
    heardBy u n p proto = 1 ↔ ∀ e ∈ l, (s.dev e.2.1).node ≠ some n := by
  unfold heardBy
  rw [hups, List.filter_append, List.filter_append]
  have h1 : (allUps s.log).filter (fun e => decide ((u.dev e.2.1).node = some n ∧ e.2.2.1 = p ∧ e.2.2.2.1 = proto)) = [] := by
    rw [List.filter_eq_nil_iff]
    intro a ha
    simp only [decide_eq_true_eq]
    exact fun h => hfresh a ha h.2
  rw [h1, List.nil_append, List.filter_cons_of_pos (by simp only [decide_eq_true_eq]; exact ⟨by rw [hcfg]; exact hn, he⟩), List.filter_nil,
    List.length_append, List.length_singleton]
  constructor
  · intro h a ha hna
    have h0 : (l.filter fun e => decide ((u.dev e.2.1).node = some n ∧ e.2.2.1 = p ∧ e.2.2.2.1 = proto)).length = 0 := by omega
    rw [List.length_eq_zero_iff, List.filter_eq_nil_iff] at h0
    refine h0 a ha ?_
    simp only [decide_eq_true_eq]
    exact ⟨by rw [hcfg]; exact hna, hl a ha⟩
  · intro h
    have : l.filter (fun e => decide ((u.dev e.2.1).node = some n ∧ e.2.2.1 = p ∧ e.2.2.2.1 = proto)) = [] := by
      rw [List.filter_eq_nil_iff]
      intro a ha
      simp only [decide_eq_true_eq]
      rintro ⟨hh, _⟩
      rw [hcfg] at hh
      exact h a ha hh
    rw [this]
    rfl

/-- One event of the flooding: nothing is sent on, or a node that did not have the packet has it now and has sent it on. -/
theorem spreading_step (hE : ErrorFree E) (hs : Fit E s) (hports : PortsOf s nodes ports) (hlen : p.length ≤ 1492)
    (hown : ∀ n, own n p proto = decide (n = n0)) (hfresh : ∀ e ∈ allUps s.log, ¬ (e.2.2.1 = p ∧ e.2.2.2.1 = proto))
    {l : List (Time × DevId × Bytes × UInt16 × Mac48)} {u : Sys} (h : Spreading E s ports n0 p proto l u) (hne : u.pending ≠ []) :
    ∃ l' v u', run E u = .ok v ∧ runK E (floodSink E (floodOnce own ports)) u = .ok u' ∧ Spreading E s ports n0 p proto l' u' ∧
      ((v = u' ∧ ∀ n, Has s n0 l n → Has s n0 l' n) ∨ ∃ n e, l' = l ++ [e] ∧ (s.dev e.2.1).node = some n ∧ ¬ Has s n0 l n ∧
        sendAll E (onAll ports n p proto) v = .ok u') := by
  rw [runK_flood]
  rcases hq : u.pending with _ | ⟨⟨t, a⟩, ps⟩
  · exact absurd hq hne
  have hut : u.now ≤ t := h.calm.fit.inv.clock.future _ (by rw [hq]; exact List.mem_cons_self)
  cases a with
  | txComplete d dest =>
    obtain ⟨v, h1, h2, h3, h4, h5⟩ := complete_run h.calm hq
    refine ⟨l, v, v, h1, h1, ⟨h2, ?_, h5.trans h.ups, h.news, ?_, h.linked, h.origin, ?_, ?_⟩, Or.inl ⟨rfl, fun _ h => h⟩⟩
    · rw [h4]; exact Nat.le_trans h.now hut
    · intro q hq'
      rw [h3] at hq'
      exact h.pend q (by rw [hq]; exact List.mem_cons_of_mem _ hq')
    · intro n hn y hy
      refine not_busy h2.fit.inv.dev ?_
      rw [h3]
      have := ((h.calm.fit.inv.dev y).ready (h.idle n hn y hy)).2.2
      rw [hq] at this
      exact txc_tail this
    · intro n hn
      obtain ⟨t0, a1, a2, a3, a4, a5⟩ := h.act n hn
      refine ⟨t0, a1, ?_, a3, a4, ?_⟩
      · rw [h4]; exact Nat.le_trans a2 hut
      · intro d' hd x δ T hla hT
        rcases a5 d' hd x δ T hla hT with hh | ⟨t', f, pw, b1, b2, b3⟩
        · exact Or.inl hh
        · refine Or.inr ⟨t', f, pw, b1, ?_, b3⟩
          rw [hq] at b2
          rw [h3]
          rcases List.mem_cons.mp b2 with b2 | b2
          · injection b2 with _ b2; cases b2
          · exact b2
  | receive x f src pw =>
    obtain ⟨ns, hns, hsrc, ⟨m, hdec⟩, hgets⟩ := h.pend ⟨t, .receive x f src pw⟩ (by rw [hq]; exact List.mem_cons_self)
    generalize hsa : (s.dev src).addr = sa at hdec
    obtain ⟨v, h1, h2, h3, h4, h5, h6, h7⟩ := receive_run hE h.calm hq hdec
    simp only
    have hnode : ∀ y, (v.dev y).node = (s.dev y).node := fun y => (h2.cfg y).node
    have hpend : ∀ q ∈ v.pending, OfFlood E s ports n0 p proto q := by
      intro q hq'
      rw [h3] at hq'
      exact h.pend q (by rw [hq]; exact List.mem_cons_of_mem _ hq')
    have hvnow : s.now ≤ v.now := by rw [h4]; exact Nat.le_trans h.now hut
    by_cases htk : TakesUp (s.dev x) x src m pw
    · obtain ⟨k1, k2⟩ := h6 htk
      rw [h.ups] at k1
      have hreact : floodReact E (floodOnce own ports) v = sendAll E (floodOnce own ports v x p proto sa) v := by
        unfold floodReact; rw [k2]
      have hnews : ∀ e ∈ l ++ [(t, x, p, proto, sa)], e.2.2.1 = p ∧ e.2.2.2.1 = proto ∧ s.now ≤ e.1 := by
        intro e he
        rcases List.mem_append.mp he with he | he
        · exact h.news e he
        · rw [List.mem_singleton] at he
          subst he
          exact ⟨rfl, rfl, Nat.le_trans h.now hut⟩
      have hhear : CanHear E s (frameSize p) src x := ⟨htk.1, pw, hgets, htk.2.1⟩
      have hlinked : ∀ n, Has s n0 (l ++ [(t, x, p, proto, sa)]) n → LinkedTo E s (frameSize p) ports n0 n := by
        rintro n (hh | ⟨e, he, hh⟩)
        · exact h.linked n (Or.inl hh)
        · rcases List.mem_append.mp he with he | he
          · exact h.linked n (Or.inr ⟨e, he, hh⟩)
          · rw [List.mem_singleton] at he
            subst he
            exact .hop hns hsrc hhear hh
      have horigin : ∀ e ∈ l ++ [(t, x, p, proto, sa)], ∃ n d, LinkedTo E s (frameSize p) ports n0 n ∧ d ∈ ports n ∧
          CanHear E s (frameSize p) d e.2.1 ∧ e.2.2.2.2 = (s.dev d).addr := by
        intro e he
        rcases List.mem_append.mp he with he | he
        · exact h.origin e he
        · rw [List.mem_singleton] at he
          subst he
          exact ⟨ns, src, hns, hsrc, hhear, hsa.symm⟩
      have hcome : ∀ {d y : DevId} {τ : Time}, Coming E s u p proto d y τ →
          (∃ t', t' ≤ τ ∧ (t', y, p, proto, (s.dev d).addr) ∈ l ++ [(t, x, p, proto, sa)]) ∨ Coming E s v p proto d y τ := by
        rintro d y τ ⟨t', f', pw', b1, b2, b3, b4⟩
        rw [hq] at b2
        rcases List.mem_cons.mp b2 with b2 | b2
        · injection b2 with c1 c2
          injection c2 with c2 c3 c4 c5
          subst c1; subst c2; subst c3; subst c4; subst c5
          rw [hdec] at b3
          injection b3 with b3
          injection b3 with _ _ b3 _
          refine Or.inl ⟨t', b1, List.mem_append_right _ ?_⟩
          rw [← b3]
          exact List.mem_singleton_self _
        · exact Or.inr ⟨t', f', pw', b1, by rw [h3]; exact b2, b3, b4⟩
      by_cases hsend : ∃ n, (s.dev x).node = some n ∧ ¬ Has s n0 l n
      · obtain ⟨n, hxn, hnot⟩ := hsend
        have hnn : n ≠ n0 := fun hh => hnot (Or.inl hh)
        have hone : heardBy v n p proto = 1 := by
          refine (heardBy_new (e := (t, x, p, proto, sa)) hnode (by rw [k1]) hfresh (fun e he => ⟨(h.news e he).1, (h.news e he).2.1⟩)
            ⟨rfl, rfl⟩ hxn).mpr ?_
          intro e he hh
          exact hnot (Or.inr ⟨e, he, hh⟩)
        have hR : floodOnce own ports v x p proto sa = onAll ports n p proto := by
          unfold floodOnce
          rw [hnode x, hxn]
          simp only [hown, hnn, decide_false, hone, and_self, if_true]
        have hbusy : ∀ d ∈ ports n, (v.dev d).busy = false := by
          intro d hd
          rw [h5]
          exact h.idle n hnot d hd
        obtain ⟨u', g1, g2, g3, g4, g5, g6, g7, g8⟩ := everybody_sendAll hs (proto := proto) hlen (ports n) h2 hvnow (hports.once n) hbusy
        refine ⟨l ++ [(t, x, p, proto, sa)], v, u', h1, ?_, ⟨g2, by rw [g3]; exact hvnow, ?_, hnews, ?_, hlinked, horigin, ?_, ?_⟩,
          Or.inr ⟨n, _, rfl, hxn, hnot, g1⟩⟩
        · rw [h1, Outcome.ok_bind, hreact, hR]; exact g1
        · rw [g4, k1, List.append_assoc]
        · intro q hq'
          rcases g6 q hq' with hq' | hq'
          · exact hpend q hq'
          · exact ⟨n, hlinked n (Or.inr ⟨_, List.mem_append_right _ (List.mem_singleton_self _), hxn⟩), hq'⟩
        · intro k hk d hd
          have hkn : ¬ Has s n0 l k := by
            rintro (hh | ⟨e, he, hh⟩)
            · exact hk (Or.inl hh)
            · exact hk (Or.inr ⟨e, List.mem_append_left _ he, hh⟩)
          have hne' : k ≠ n := by
            rintro rfl
            exact hk (Or.inr ⟨_, List.mem_append_right _ (List.mem_singleton_self _), hxn⟩)
          rw [g7 d, h5]
          · exact h.idle k hkn d hd
          · intro hd'
            have e1 := hports.own k d hd
            rw [hports.own n d hd'] at e1
            injection e1 with e1
            exact hne' e1.symm
        · intro k hk
          by_cases hkn : k = n
          · subst hkn
            refine ⟨t, Nat.le_trans h.now hut, by rw [g3, h4], fun hh => absurd hh hnn, ?_, ?_⟩
            · intro _ e he hen
              rcases List.mem_append.mp he with he | he
              · exact absurd (Or.inr ⟨e, he, hen⟩) hnot
              · rw [List.mem_singleton] at he
                subst he
                exact Nat.le_refl _
            · intro d hd y δ T hla hT
              have := g8 d hd y δ T hla (by rw [h4]; exact hT)
              rw [h4] at this
              exact Or.inr this
          · have hk' : Has s n0 l k := by
              rcases hk with hh | ⟨e, he, hh⟩
              · exact Or.inl hh
              · rcases List.mem_append.mp he with he | he
                · exact Or.inr ⟨e, he, hh⟩
                · rw [List.mem_singleton] at he
                  subst he
                  rw [hxn] at hh
                  injection hh with hh
                  exact absurd hh.symm hkn
            obtain ⟨t0, a1, a2, a3, a4, a5⟩ := h.act k hk'
            refine ⟨t0, a1, ?_, a3, ?_, ?_⟩
            · rw [g3, h4]; exact Nat.le_trans a2 hut
            · intro hk0 e he hen
              rcases List.mem_append.mp he with he | he
              · exact a4 hk0 e he hen
              · rw [List.mem_singleton] at he
                subst he
                exact Nat.le_trans a2 hut
            · intro d hd y δ T hla hT
              rcases a5 d hd y δ T hla hT with ⟨t', b1, b2⟩ | hc
              · exact Or.inl ⟨t', b1, List.mem_append_left _ b2⟩
              · rcases hcome hc with hh | hh
                · exact Or.inl hh
                · exact Or.inr (hh.mono g5)
      · have hR : floodOnce own ports v x p proto sa = [] := by
          unfold floodOnce
          rw [hnode x]
          cases hxn : (s.dev x).node with
          | none => rfl
          | some n =>
            simp only
            rw [if_neg]
            rintro ⟨c1, c2⟩
            rw [hown, decide_eq_false_iff_not] at c1
            have c3 := (heardBy_new (e := (t, x, p, proto, sa)) hnode (by rw [k1]) hfresh
              (fun e he => ⟨(h.news e he).1, (h.news e he).2.1⟩) ⟨rfl, rfl⟩ hxn).mp c2
            refine hsend ⟨n, hxn, ?_⟩
            rintro (hh | ⟨e, he, hh⟩)
            · exact c1 hh
            · exact c3 e he hh
        have hold : ∀ n, Has s n0 (l ++ [(t, x, p, proto, sa)]) n → Has s n0 l n := by
          rintro n (hh | ⟨e, he, hh⟩)
          · exact Or.inl hh
          · rcases List.mem_append.mp he with he | he
            · exact Or.inr ⟨e, he, hh⟩
            · rw [List.mem_singleton] at he
              subst he
              by_contra hcon
              exact hsend ⟨n, hh, hcon⟩
        have hmore : ∀ n, Has s n0 l n → Has s n0 (l ++ [(t, x, p, proto, sa)]) n := by
          rintro n (hh | ⟨e, he, hh⟩)
          · exact Or.inl hh
          · exact Or.inr ⟨e, List.mem_append_left _ he, hh⟩
        refine ⟨l ++ [(t, x, p, proto, sa)], v, v, h1, ?_, ⟨h2, hvnow, by rw [k1, List.append_assoc], hnews, hpend, hlinked, horigin, ?_, ?_⟩,
          Or.inl ⟨rfl, hmore⟩⟩
        · rw [h1, Outcome.ok_bind, hreact, hR]; rfl
        · intro n hn d hd
          rw [h5]
          exact h.idle n (fun hh => hn (hmore n hh)) d hd
        · intro n hn
          obtain ⟨t0, a1, a2, a3, a4, a5⟩ := h.act n (hold n hn)
          refine ⟨t0, a1, ?_, a3, ?_, ?_⟩
          · rw [h4]; exact Nat.le_trans a2 hut
          · intro hk0 e he hen
            rcases List.mem_append.mp he with he | he
            · exact a4 hk0 e he hen
            · rw [List.mem_singleton] at he
              subst he
              exact Nat.le_trans a2 hut
          · intro d hd y δ T hla hT
            rcases a5 d hd y δ T hla hT with ⟨t', b1, b2⟩ | hc
            · exact Or.inl ⟨t', b1, List.mem_append_left _ b2⟩
            · exact hcome hc
    · obtain ⟨k1, _⟩ := h7 htk
      have hreact : floodReact E (floodOnce own ports) v = .ok v := by
        have hrecv : receive E { u with now := t, pending := ps } x f src pw = .ok v := by
          rw [← h1]; unfold run; rw [hq]; rfl
        have hu := ups_receive hrecv
        rw [k1] at hu
        simp only at hu
        unfold floodReact
        split
        · rename_i hh
          rw [hh] at hu
          have := congrArg List.length hu
          simp at this
        · rfl
      refine ⟨l, v, v, h1, by rw [h1, Outcome.ok_bind, hreact], ⟨h2, hvnow, k1.trans h.ups, h.news, hpend, h.linked, h.origin, ?_, ?_⟩,
        Or.inl ⟨rfl, fun _ h => h⟩⟩
      · intro n hn d hd
        rw [h5]
        exact h.idle n hn d hd
      · intro n hn
        obtain ⟨t0, a1, a2, a3, a4, a5⟩ := h.act n hn
        refine ⟨t0, a1, by rw [h4]; exact Nat.le_trans a2 hut, a3, a4, ?_⟩
        intro d hd y δ T hla hT
        rcases a5 d hd y δ T hla hT with hh | ⟨t', f', pw', b1, b2, b3, b4⟩
        · exact Or.inl hh
        · rw [hq] at b2
          rcases List.mem_cons.mp b2 with b2 | b2
          · injection b2 with c1 c2
            injection c2 with c2 c3 c4 c5
            subst c1; subst c2; subst c3; subst c4; subst c5
            rw [hdec] at b3
            injection b3 with b3
            injection b3 with _ _ _ b3
            subst b3
            exact absurd b4 htk
          · exact Or.inr ⟨t', f', pw', b1, by rw [h3]; exact b2, b3, b4⟩

/-! ### It ends -/

open Classical in
/-- The number of ports of the nodes that do not have the packet. -/
noncomputable def portsLeft (s : Sys) (nodes : List NodeId) (ports : NodeId → List DevId) (n0 : NodeId)
    (l : List (Time × DevId × Bytes × UInt16 × Mac48)) : Nat :=
  (nodes.map fun n => if Has s n0 l n then 0 else (ports n).length).sum

theorem sum_map_le {α : Type} {f g : α → Nat} (l : List α) (h : ∀ x ∈ l, f x ≤ g x) : (l.map f).sum ≤ (l.map g).sum := by
  induction l with
  | nil => exact Nat.le_refl _
  | cons a l ih =>
    simp only [List.map_cons, List.sum_cons]
    exact Nat.add_le_add (h a List.mem_cons_self) (ih fun x hx => h x (List.mem_cons_of_mem _ hx))

theorem sum_map_drop {α : Type} {f g : α → Nat} (l : List α) (h : ∀ x ∈ l, f x ≤ g x) {a : α} (ha : a ∈ l) {k : Nat} (hk : f a + k ≤ g a) :
    (l.map f).sum + k ≤ (l.map g).sum := by
  induction l with
  | nil => cases ha
  | cons b l ih =>
    simp only [List.map_cons, List.sum_cons]
    rcases List.mem_cons.mp ha with rfl | ha
    · have := sum_map_le l fun x hx => h x (List.mem_cons_of_mem _ hx)
      omega
    · have := ih (fun x hx => h x (List.mem_cons_of_mem _ hx)) ha
      have := h b List.mem_cons_self
      omega

theorem portsLeft_le {l l' : List (Time × DevId × Bytes × UInt16 × Mac48)} (h : ∀ n, Has s n0 l n → Has s n0 l' n) :
    portsLeft s nodes ports n0 l' ≤ portsLeft s nodes ports n0 l := by
  refine sum_map_le _ fun n _ => ?_
  by_cases h1 : Has s n0 l n
  · rw [if_pos (h n h1)]; exact Nat.zero_le _
  · rw [if_neg h1]; split <;> omega

theorem portsLeft_drop {l l' : List (Time × DevId × Bytes × UInt16 × Mac48)} (h : ∀ n, Has s n0 l n → Has s n0 l' n) {n : NodeId}
    (hn : n ∈ nodes) (h1 : ¬ Has s n0 l n) (h2 : Has s n0 l' n) :
    portsLeft s nodes ports n0 l' + (ports n).length ≤ portsLeft s nodes ports n0 l := by
  refine sum_map_drop _ (fun k _ => ?_) hn (by rw [if_pos h2, if_neg h1]; omega)
  by_cases h1 : Has s n0 l k
  · rw [if_pos (h k h1)]; exact Nat.zero_le _
  · rw [if_neg h1]; split <;> omega

theorem spreading_ends {N : Nat} (hE : ErrorFree E) (hs : Fit E s) (hports : PortsOf s nodes ports) (hlen : p.length ≤ 1492)
    (hown : ∀ n, own n p proto = decide (n = n0)) (hfresh : ∀ e ∈ allUps s.log, ¬ (e.2.2.1 = p ∧ e.2.2.2.1 = proto)) (W : Nat) :
    ∀ {l : List (Time × DevId × Bytes × UInt16 × Mac48)} {u : Sys}, Spreading E s ports n0 p proto l u → Bounded N u →
    potential (fun _ => 0) N 0 E u + portsLeft s nodes ports n0 l * (1 + N) ≤ W →
    ∃ k l' u', k ≤ W ∧ flood E (floodOnce own ports) k u = .ok u' ∧ Spreading E s ports n0 p proto l' u' ∧ u'.pending = [] := by
  induction W with
  | zero =>
    intro l u h hN hW
    cases hp : u.pending with
    | nil => exact ⟨0, l, u, Nat.le_refl _, rfl, h, hp⟩
    | cons q ps =>
      obtain ⟨u', hu⟩ := fit_progress h.calm.fit (op := .run) ⟨True.intro, True.intro⟩
      simp only [step] at hu
      obtain ⟨_, hh⟩ := potential_run (hops := fun _ => 0) (B := 0) hp hN h.calm.fit.inv.dev hu
      split at hh <;> omega
  | succ W ih =>
    intro l u h hN hW
    cases hp : u.pending with
    | nil => exact ⟨0, l, u, Nat.zero_le _, rfl, h, hp⟩
    | cons q ps =>
      obtain ⟨l', v, u', h1, h2, h3, h4⟩ := spreading_step hE hs hports hlen hown hfresh h (by rw [hp]; simp)
      obtain ⟨hch, hh⟩ := potential_run (hops := fun _ => 0) (B := 0) hp hN h.calm.fit.inv.dev h1
      have hpot : potential (fun _ => 0) N 0 E v + 1 ≤ potential (fun _ => 0) N 0 E u := by split at hh <;> omega
      have hNv : Bounded N v := by intro c; rw [hch]; exact hN c
      have key : Bounded N u' ∧ potential (fun _ => 0) N 0 E u' + portsLeft s nodes ports n0 l' * (1 + N) ≤ W := by
        rcases h4 with ⟨rfl, hmore⟩ | ⟨n, e, rfl, hen, hnot, hsend⟩
        · refine ⟨hNv, ?_⟩
          have := Nat.mul_le_mul_right (1 + N) (portsLeft_le (nodes := nodes) (ports := ports) hmore)
          omega
        · have hfv : Fit E v := fit_step h.calm.fit (op := .run) ⟨True.intro, True.intro⟩ (by simpa only [step] using h1)
          obtain ⟨w, _, g1, _, g3, g4, _⟩ := potential_sendAll (hops := fun _ => 0) (B := 0) (D := 1 + N) (onAll ports n p proto) hfv hNv (by
            intro e he
            obtain ⟨d, _, rfl⟩ := List.mem_map.mp he
            exact ⟨Nat.le_refl _, hlen, by simp⟩)
          rw [hsend] at g1
          obtain rfl := Outcome.ok.inj g1
          refine ⟨g3, ?_⟩
          have hdrop : portsLeft s nodes ports n0 (l ++ [e]) + (ports n).length ≤ portsLeft s nodes ports n0 l := by
            have hmore : ∀ k, Has s n0 l k → Has s n0 (l ++ [e]) k := by
              rintro k (hh | ⟨e', he, hh⟩)
              · exact Or.inl hh
              · exact Or.inr ⟨e', List.mem_append_left _ he, hh⟩
            by_cases hpn : ports n = []
            · rw [hpn]; exact portsLeft_le hmore
            · exact portsLeft_drop hmore (hports.all n hpn) hnot (Or.inr ⟨e, by simp, hen⟩)
          have hl : (onAll ports n p proto).length = (ports n).length := by simp [onAll]
          rw [hl] at g4
          have := Nat.mul_le_mul_right (1 + N) hdrop
          rw [Nat.add_mul] at this
          omega
      obtain ⟨k, l2, w, g1, g2, g3, g4⟩ := ih h3 key.1 key.2
      exact ⟨k + 1, l2, w, by omega, by rw [flood, h2, Outcome.ok_bind, g2], g3, g4⟩

/-- When it is over, whoever a path leads to has the packet. -/
theorem spreading_path {l : List (Time × DevId × Bytes × UInt16 × Mac48)} {u : Sys} (h : Spreading E s ports n0 p proto l u)
    (hp : u.pending = []) {n : NodeId} {T : Time} (hpath : PathBy E s (frameSize p) ports n0 n T) :
    Has s n0 l n ∧ ∀ d ∈ ports n, ∀ x δ, Lasting E s (frameSize p) T d x δ →
      ∃ t', t' ≤ T + δ ∧ (t', x, p, proto, (s.dev d).addr) ∈ l := by
  have main : s.now ≤ T ∧ Has s n0 l n ∧ ∃ t0, t0 ≤ T ∧ ∀ d ∈ ports n, ∀ x δ T, Lasting E s (frameSize p) T d x δ → t0 ≤ T →
      ∃ t', t' ≤ t0 + δ ∧ (t', x, p, proto, (s.dev d).addr) ∈ l := by
    have hnone : ∀ d x t, ¬ Coming E s u p proto d x t := by
      rintro d x t ⟨_, _, _, _, hm, _⟩
      rw [hp] at hm
      cases hm
    induction hpath with
    | start =>
      obtain ⟨t0, a1, a2, a3, a4, a5⟩ := h.act n0 (Or.inl rfl)
      refine ⟨Nat.le_refl _, Or.inl rfl, t0, Nat.le_of_eq (a3 rfl), ?_⟩
      intro d hd x δ T hla hT
      rcases a5 d hd x δ T hla hT with hh | hh
      · exact hh
      · exact absurd hh (hnone _ _ _)
    | @hop n m T δ d x hpath hd hl hx ih =>
      obtain ⟨hT, _, t0, ht0, hall⟩ := ih
      obtain ⟨t', b1, b2⟩ := hall d hd x δ T hl ht0
      have hm : Has s n0 l m := Or.inr ⟨_, b2, hx⟩
      obtain ⟨t1, a1, a2, a3, a4, a5⟩ := h.act m hm
      refine ⟨Nat.le_trans hT (Nat.le_add_right _ _), hm, t1, ?_, ?_⟩
      · by_cases hm0 : m = n0
        · rw [a3 hm0]; exact Nat.le_trans hT (Nat.le_add_right _ _)
        · exact Nat.le_trans (a4 hm0 _ b2 hx) (Nat.le_trans b1 (Nat.add_le_add_right ht0 _))
      · intro d hd x δ T hla hT
        rcases a5 d hd x δ T hla hT with hh | hh
        · exact hh
        · exact absurd hh (hnone _ _ _)
  obtain ⟨_, h1, t0, h2, h3⟩ := main
  refine ⟨h1, ?_⟩
  intro d hd x δ hla
  obtain ⟨t', b1, b2⟩ := h3 d hd x δ T hla h2
  exact ⟨t', Nat.le_trans b1 (Nat.add_le_add_right h2 _), b2⟩

end

end Verif
