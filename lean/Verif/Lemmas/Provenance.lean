import Verif.Lemmas.Arrive
import Verif.Props.Receive
/-! Where receptions come from, and their number and order. -/

namespace Verif
open Spec

theorem mem_announced {log : List (Time × Ev)} {a : Arrival} :
    a ∈ announced log ↔ ∃ t c tx del, (t, Ev.txrx c a.frame a.src a.dst tx del) ∈ log ∧ a.time = t + del := by
  unfold announced
  rw [List.mem_filterMap]
  constructor
  · rintro ⟨⟨t, e⟩, he, hx⟩
    cases e <;> first | (cases hx; done) | skip
    rename_i c f src dst tx del
    injection hx with hx
    subst hx
    exact ⟨t, c, tx, del, he, rfl⟩
  · rintro ⟨t, c, tx, del, he, hx⟩
    refine ⟨_, he, ?_⟩
    simp only [← hx]

theorem mem_happened {log : List (Time × Ev)} {a : Arrival} :
    a ∈ happened log ↔ ∃ rx, (a.time, Ev.recvCall a.dst a.frame a.src rx) ∈ log := by
  unfold happened
  rw [List.mem_filterMap]
  constructor
  · rintro ⟨⟨t, e⟩, he, hx⟩
    cases e <;> first | (cases hx; done) | skip
    rename_i dst f src rx
    injection hx with hx
    subst hx
    exact ⟨rx, he⟩
  · rintro ⟨rx, he⟩
    exact ⟨_, he, rfl⟩

theorem mem_begun {log : List (Time × Ev)} {d : DevId} {f : Bytes} :
    f ∈ begun d log ↔ ∃ t, (t, Ev.phyTxBegin d f) ∈ log := by
  unfold begun proj
  rw [List.mem_filterMap]
  constructor
  · rintro ⟨⟨t, e⟩, he, hx⟩
    cases e <;> first | (cases hx; done) | skip
    rename_i d' f'
    simp only [begunEv] at hx
    split at hx
    · injection hx with hx; subst hx; rename_i hd; subst hd; exact ⟨t, he⟩
    · cases hx
  · rintro ⟨t, he⟩
    exact ⟨_, he, by simp [begunEv]⟩

theorem newLog_sub {E : Env} {s s' s2 : Sys} {op : Op} {ops : List Op} (hg : Good s) (h : step E s op = .ok s')
    (h2 : exec E s' ops = .ok s2) {e : Time × Ev} (he : e ∈ newLog s s') : e ∈ s2.log := by
  have h1 : e ∈ s'.log := by rw [log_prefix_step hg.inv hg.wired h]; simp [he]
  refine (exec_induct (P := fun x => Good x ∧ e ∈ x.log) ?_ ⟨good_step hg h, h1⟩ h2).2
  rintro u u' op ⟨hu, hm⟩ hs
  exact ⟨good_step hu hs, by rw [log_prefix_step hu.inv hu.wired hs]; simp [hm]⟩

/-- Every accepted frame comes from a `Send` of the device. -/
theorem accepted_origin {E : Env} {s s' : Sys} {ops : List Op} (h0 : Initial s) (h : exec E s ops = .ok s')
    {d : DevId} {f : Bytes} (hf : f ∈ accepted d s'.log) :
    ∃ o1 p m proto o2 s1, ops = o1 ++ .send d p (.mac m) proto :: o2 ∧ exec E s o1 = .ok s1 ∧
      f = addHeader E.fcs p (s1.dev d).addr m proto ∧ (s1.now, Ev.sendRet d p (.mac m) proto true f) ∈ s'.log := by
  unfold accepted proj at hf
  rw [List.mem_filterMap] at hf
  obtain ⟨e, he, hx⟩ := hf
  obtain ⟨o1, op, o2, s1, s2, rfl, h1, h2, h3, h4⟩ := log_entry_origin h0 h he
  have hg := good_exec h0 h1
  have hmem : f ∈ accepted d (newLog s1 s2) := by
    unfold accepted proj; exact List.mem_filterMap.mpr ⟨e, h4, hx⟩
  have hlog := log_prefix_step hg.inv hg.wired h2
  have fin : ∀ {ph air} {acc : List Bytes}, LogStep d s1 s2 ph air acc → f ∈ acc := by
    intro ph air acc hl
    have h5 := hl.acc
    rw [hlog] at h5
    unfold accepted at h5 hmem
    rw [proj_append] at h5
    rw [← List.append_cancel_left h5]
    exact hmem
  have done : ∀ {dest g}, f = g → SendsFrame E s1 op d dest g → 
      ∃ o1' p m proto o2' s1', o1 ++ op :: o2 = o1' ++ .send d p (.mac m) proto :: o2' ∧ exec E s o1' = .ok s1' ∧
      f = addHeader E.fcs p (s1'.dev d).addr m proto ∧ (s1'.now, Ev.sendRet d p (.mac m) proto true f) ∈ s'.log := by
    rintro dest g rfl ⟨p, proto, m, rfl, rfl, hf⟩
    refine ⟨o1, p, m, proto, o2, s1, rfl, h1, hf, newLog_sub hg h2 h3 ?_⟩
    have h2s : send E s1 d p (.mac m) proto = .ok s2 := h2
    rcases send_ok h2s with ⟨_, rfl⟩ | ⟨_, _, m', hm', f', hf', hcase⟩
    · simp [newLog, accepted, proj, acceptedEv] at hmem
    · injection hm' with hm'
      subst hm'
      rw [← hf] at hf'
      subst hf'
      rcases hcase with ⟨_, rfl⟩ | ⟨_, _, rfl⟩ | ⟨_, _, g, rest, s3, _, hts, rfl⟩
      · simp [newLog, accepted, proj, acceptedEv] at hmem
      · simp [newLog]
      · obtain ⟨_, c, src, rs, b, hchan, _, _, rfl⟩ := transmitStart_ok hts
        simp [newLog, txState]
  cases devStep_step hg.inv.dev h2 d with
  | keep acc _ _ _ hacc _ hl =>
    have := fin hl
    rcases hacc with rfl | ⟨_, dest, g, rfl, hs⟩
    · cases this
    · exact done (List.mem_singleton.mp this) hs
  | start g dest hop _ _ _ _ _ hl => exact done (List.mem_singleton.mp (fin hl)) hop
  | stop _ _ _ _ _ _ _ _ hl => cases fin hl
  | next _ _ _ _ _ _ _ _ _ _ _ _ hl => cases fin hl

/-- A call of the receive callback happens while an event of the simulator is run that is a reception. -/
theorem rxCallback_step {E : Env} {s s' : Sys} {op : Op} (hi : Inv s) (hw : Wired s) (h : step E s op = .ok s')
    {t : Time} {d : DevId} {p : Bytes} {proto : UInt16} {sa : Mac48}
    (hm : (t, Ev.rxCallback d p proto sa) ∈ newLog s s') :
    ∃ (f : Bytes) (src : DevId) (rx : Power) (l : List Ev), op = .run ∧ t = s'.now ∧ s.pending = ⟨s'.now, .receive d f src rx⟩ :: s'.pending ∧
      s'.log = s.log ++ ((s'.now, .recvCall d f src rx) :: l.map (fun e => (s'.now, e))) ∧
      Ev.rxCallback d p proto sa ∈ l ∧
      receive E { s with now := s'.now, pending := s'.pending } d f src rx = .ok s' := by
  have hnl : ∀ l, s'.log = s.log ++ l → newLog s s' = l := by
    intro l hl; unfold newLog; rw [hl, List.drop_left]
  cases netStep_step hi hw h with
  | quiet l hlog hl hp => rw [hnl l hlog] at hm; exact absurd (hl _ hm) (by simp [MuteEv])
  | recv d' f src rx l hop hp hlog hl hd hc hcall =>
    rw [hnl _ hlog] at hm
    rcases List.mem_cons.mp hm with hm | hm
    · cases hm
    · obtain ⟨e, he, heq⟩ := List.mem_map.mp hm
      injection heq with h1 h2
      subst h2
      have hd' : d = d' := hl _ he
      subst hd'
      exact ⟨f, src, rx, l, hop, h1.symm, hp, hlog, he, hcall⟩
  | tx d' f dest c rs b ps l1 l2 hchan hrs hb hps hp hlog hl1 hl2 hd hc =>
    exfalso
    rw [hnl _ hlog] at hm
    simp only [List.mem_append] at hm
    rcases hm with hm | hm | hm | hm | hm
    · exact absurd (hl1 _ hm) (by simp [MuteEv])
    · simp at hm
    · obtain ⟨r, _, hr⟩ := List.mem_map.mp hm
      simp [Recv.entry] at hr
    · cases b <;> simp at hm
    · exact absurd (hl2 _ hm) (by simp [MuteEv])

/-! ### Numbers -/

theorem handed_append (src dst : DevId) (l m : List (Time × Ev)) : handed src dst (l ++ m) = handed src dst l ++ handed src dst m := by
  unfold handed; exact proj_append _ _ _

theorem begun_append (d : DevId) (l m : List (Time × Ev)) : begun d (l ++ m) = begun d l ++ begun d m := by
  unfold begun; exact proj_append _ _ _

theorem between_announced (src dst : DevId) (log : List (Time × Ev)) :
    (between src dst (announced log)).map Arrival.frame = handed src dst log := by
  induction log with
  | nil => rfl
  | cons e log ih =>
    have e1 : announced (e :: log) = announced [e] ++ announced log := announced_append [e] log
    have e2 : handed src dst (e :: log) = handed src dst [e] ++ handed src dst log := handed_append _ _ [e] log
    rw [e1, e2, between_append, List.map_append, ih]
    congr 1
    obtain ⟨t, e⟩ := e
    cases e <;> first | rfl | skip
    rename_i c f s d tx del
    by_cases h1 : s = src <;> by_cases h2 : d = dst <;> simp [announced, between, handed, proj, h1, h2]

theorem between_happened (src dst : DevId) (log : List (Time × Ev)) :
    (between src dst (happened log)).map Arrival.frame = received src dst log := by
  induction log with
  | nil => rfl
  | cons e log ih =>
    have e1 : happened (e :: log) = happened [e] ++ happened log := happened_append [e] log
    have e2 : received src dst (e :: log) = received src dst [e] ++ received src dst log := by
      unfold received; exact proj_append _ [e] log
    rw [e1, e2, between_append, List.map_append, ih]
    congr 1
    obtain ⟨t, e⟩ := e
    cases e <;> first | rfl | skip
    rename_i d f s rx
    by_cases h1 : s = src <;> by_cases h2 : d = dst <;> simp [happened, between, received, proj, h1, h2]

theorem between_scheduled_frames (src dst : DevId) (ps : List Pending) :
    (between src dst (scheduled ps)).map Arrival.frame = pendingRecv src dst ps := by
  rw [between_scheduled]
  unfold pendingRecv
  rw [List.map_filterMap]
  congr 1
  funext p
  obtain ⟨t, a⟩ := p
  cases a with
  | txComplete => rfl
  | receive d f s rx =>
    by_cases h1 : s = src <;> by_cases h2 : d = dst <;> simp [pairOf, arrivalOf, h1, h2]

theorem handed_airFree {src dst : DevId} {l : List (Time × Ev)} (h : AirFree l) : handed src dst l = [] := by
  rw [← between_announced, announced_airFree h]; rfl

/-- One operation hands a frame at most once from one device to another if every device is attached at most once. -/
theorem handed_step {E : Env} {s s' : Sys} {op : Op} (hi : Inv s) (hw : Wired s) (h : step E s op = .ok s')
    (ho : ∀ c, OnceInv c s) (hnd : ∀ c, (s.chan c).link.Nodup) (src dst : DevId) :
    (handed src dst (newLog s s')).Sublist (begun src (newLog s s')) := by
  have hnl : ∀ l, s'.log = s.log ++ l → newLog s s' = l := by
    intro l hl; unfold newLog; rw [hl, List.drop_left]
  cases netStep_step hi hw h with
  | quiet l hlog hl hp => rw [hnl l hlog, handed_airFree hl.air]; exact List.nil_sublist _
  | recv d' f sr rx l hop hp hlog hl hd hc hcall =>
    rw [hnl _ hlog]
    have : handed src dst ((s'.now, Ev.recvCall d' f sr rx) :: l.map (fun e => (s'.now, e))) = [] := by
      have h1 := handed_append src dst [(s'.now, Ev.recvCall d' f sr rx)] (l.map (fun e => (s'.now, e)))
      rw [handed_airFree (airFree_rxEvs _ hl)] at h1
      exact h1
    rw [this]
    exact List.nil_sublist _
  | tx d' f dest c rs b ps l1 l2 hchan hrs hb hps hp hlog hl1 hl2 hd hc =>
    rw [hnl _ hlog]
    simp only [handed_append, begun_append, handed_airFree hl1.air, handed_airFree hl2.air]
    have hdrop : handed src dst (if b = true then [] else [(s'.now, Ev.phyTxDrop d' f)]) = [] := by cases b <;> rfl
    have hbeg : handed src dst [(s'.now, Ev.phyTxBegin d' f), (s'.now, Ev.onAir d' f dest)] = [] := rfl
    rw [hdrop, hbeg]
    simp only [List.append_nil, List.nil_append]
    have hrsnd : (rs.map Recv.dst).Nodup := by
      rw [hrs]
      refine List.Nodup.sublist ?_ (audience_nodup (slot := (s.dev d').chanSlot) (dest := dest) (ho c) (hnd c))
      generalize audience s c (s.dev d').chanSlot dest = as
      clear hrs hb hps hp hlog
      induction as with
      | nil => exact List.Sublist.refl _
      | cons a as ih =>
        rw [List.filterMap_cons]
        cases hr : recvOf E { s with now := s'.now } c d' (E.txTime (s.dev d').rate f.length) a with
        | none => exact List.Sublist.cons _ ih
        | some r =>
          simp only [List.map_cons]
          rw [recvOf_dst hr]
          exact List.Sublist.cons_cons _ ih
    by_cases hsrc : d' = src
    · subst hsrc
      have hsub : ∀ rs : List Recv, (rs.map Recv.dst).Nodup →
          (handed d' dst (rs.map (Recv.entry s'.now c f d' (E.txTime (s.dev d').rate f.length)))).Sublist [f] ∧
          (dst ∉ rs.map Recv.dst →
            handed d' dst (rs.map (Recv.entry s'.now c f d' (E.txTime (s.dev d').rate f.length))) = []) := by
        intro rs
        induction rs with
        | nil => intro _; exact ⟨List.nil_sublist _, fun _ => rfl⟩
        | cons r rs ih =>
          intro hnd
          rw [List.map_cons, List.nodup_cons] at hnd
          obtain ⟨i1, i2⟩ := ih hnd.2
          have e1 := handed_append d' dst [Recv.entry s'.now c f d' (E.txTime (s.dev d').rate f.length) r]
            (rs.map (Recv.entry s'.now c f d' (E.txTime (s.dev d').rate f.length)))
          rw [List.singleton_append] at e1
          rw [List.map_cons, e1]
          by_cases hr : r.dst = dst
          · have e2 : handed d' dst [Recv.entry s'.now c f d' (E.txTime (s.dev d').rate f.length) r] = [f] := by
              simp [handed, proj, Recv.entry, hr]
            rw [e2, i2 (hr ▸ hnd.1)]
            exact ⟨List.Sublist.refl _, fun hn => absurd (by simp [hr]) hn⟩
          · have e2 : handed d' dst [Recv.entry s'.now c f d' (E.txTime (s.dev d').rate f.length) r] = [] := by
              simp [handed, proj, Recv.entry, hr]
            rw [e2, List.nil_append]
            refine ⟨i1, fun hn => i2 fun hm => hn ?_⟩
            rw [List.map_cons]; exact List.mem_cons_of_mem _ hm
      refine (hsub rs hrsnd).1.trans ?_
      have e3 : begun d' [(s'.now, Ev.phyTxBegin d' f), (s'.now, Ev.onAir d' f dest)] = [f] := by
        simp [begun, proj, begunEv]
      rw [e3]
      exact (List.sublist_append_left _ _).trans (List.sublist_append_right _ _)
    · have : handed src dst (rs.map (Recv.entry s'.now c f d' (E.txTime (s.dev d').rate f.length))) = [] := by
        unfold handed proj
        rw [List.filterMap_eq_nil_iff]
        intro e he
        obtain ⟨r, _, rfl⟩ := List.mem_map.mp he
        simp [Recv.entry, hsrc]
      rw [this]
      exact List.nil_sublist _

theorem handed_exec {E : Env} {s s' : Sys} {ops : List Op} (h0 : Initial s) (h : exec E s ops = .ok s')
    (hnd : ∀ c, (s'.chan c).link.Nodup) (src dst : DevId) :
    (handed src dst s'.log).Sublist (begun src s'.log) := by
  have key : ∀ (ops : List Op) (s : Sys), Good s → (∀ c, OnceInv c s) → exec E s ops = .ok s' →
      (∀ c, (s.chan c).link.Nodup) ∧ ((handed src dst s.log).Sublist (begun src s.log) →
        (handed src dst s'.log).Sublist (begun src s'.log)) := by
    intro ops
    induction ops with
    | nil => intro s _ _ h; injection h with h; subst h; exact ⟨hnd, id⟩
    | cons op ops ih =>
      intro s hg ho h
      simp only [exec] at h
      rw [Outcome.bind_eq_ok] at h
      obtain ⟨s1, h1, h2⟩ := h
      obtain ⟨k1, k2⟩ := ih s1 (good_step hg h1) (fun c => onceInv_step (ho c) h1) h2
      have hn : ∀ c, (s.chan c).link.Nodup := by
        intro c
        obtain ⟨l, hl⟩ := link_step h1 c
        have := k1 c
        rw [hl] at this
        exact (List.nodup_append.mp this).1
      refine ⟨hn, fun hi => k2 ?_⟩
      rw [log_prefix_step hg.inv hg.wired h1, handed_append, begun_append]
      exact hi.append (handed_step hg.inv hg.wired h1 ho hn src dst)
  refine (key ops s (good_initial h0) (fun c => onceInv_exec (E := E) h0 (ops := []) rfl c) h).2 ?_
  rw [h0.log]; exact List.Sublist.refl _

/-! ### Serialised hand-overs -/

/-- Arrivals of frames of `src`, all delayed by their transmission time, do not overtake the end of
the transmission in progress. -/
structure SerialInv (src : DevId) (s : Sys) : Prop where
  bound : ∀ a ∈ announced s.log, a.src = src →
    ((s.dev src).busy = false → a.time ≤ s.now) ∧ (∀ x ∈ txc src s.pending, a.time ≤ x.1)
  mono : ((announced s.log).filter (fun a => decide (a.src = src))).Pairwise (fun a b => a.time ≤ b.time)

theorem serial_step {E : Env} {s s' : Sys} {op : Op} {src : DevId} (hg : Good s) (h : step E s op = .ok s')
    (hser : ∀ t c f dst tx del, (t, Ev.txrx c f src dst tx del) ∈ newLog s s' → del = tx)
    (hi : SerialInv src s) : SerialInv src s' := by
  have hlog := log_prefix_step hg.inv hg.wired h
  have hnow := (clock_step hg.inv.clock h).2.1
  -- new arrivals
  have hnew : ∀ a ∈ announced (newLog s s'), a.src = src →
      ∃ f, (s'.now, Ev.phyTxBegin src f) ∈ newLog s s' ∧ a.time = s'.now + E.txTime (s.dev src).rate f.length := by
    intro a ha hsrc
    obtain ⟨t, c, tx, del, hm, ht⟩ := mem_announced.mp ha
    rw [hsrc] at hm
    obtain ⟨dest, pw, _, _, _, h4, h5, _, _, h8⟩ := txrx_step hg.inv hg.wired h hm
    have := hser _ _ _ _ _ _ hm
    exact ⟨a.frame, h8, by rw [ht, this, h4, h5]⟩
  have hph : ∀ {ph air acc}, LogStep src s s' ph air acc → ∀ f t, (t, Ev.phyTxBegin src f) ∈ newLog s s' →
      Phase.start f ∈ ph := by
    intro ph air acc hl f t hm
    have h1 := hl.phase
    rw [hlog] at h1
    unfold phasesT at h1
    rw [projT_append] at h1
    have h2 := List.append_cancel_left h1
    have h3 : (t, Phase.start f) ∈ projT (phaseEv src) (newLog s s') := by
      unfold projT
      exact List.mem_filterMap.mpr ⟨_, hm, by simp [phaseEv]⟩
    rw [h2] at h3
    obtain ⟨p, hp, hpe⟩ := List.mem_map.mp h3
    injection hpe with _ hpe
    rw [← hpe]; exact hp
  have hbusy : (s.dev src).busy = false → txc src s.pending = [] := fun hb => ((hg.inv.dev src).ready hb).2.2
  rw [show SerialInv src s' ↔ _ from ⟨fun h => And.intro h.bound h.mono, fun h => ⟨h.1, h.2⟩⟩]
  rw [hlog]
  simp only [announced_append, List.filter_append]
  -- the case without new arrivals
  have quiet : announced (newLog s s') = [] ∨ (∀ a ∈ announced (newLog s s'), a.src ≠ src) →
      (∀ a ∈ announced s.log, a.src = src →
        ((s'.dev src).busy = false → a.time ≤ s'.now) ∧ (∀ x ∈ txc src s'.pending, a.time ≤ x.1)) →
      (∀ a ∈ announced s.log ++ announced (newLog s s'), a.src = src →
        ((s'.dev src).busy = false → a.time ≤ s'.now) ∧ (∀ x ∈ txc src s'.pending, a.time ≤ x.1)) ∧
      ((announced s.log).filter (fun a => decide (a.src = src)) ++
        (announced (newLog s s')).filter (fun a => decide (a.src = src))).Pairwise (fun a b => a.time ≤ b.time) := by
    intro h1 h2
    have h1' : ∀ a ∈ announced (newLog s s'), a.src ≠ src := by
      rcases h1 with h1 | h1
      · rw [h1]; simp
      · exact h1
    constructor
    · intro a ha hs
      rcases List.mem_append.mp ha with ha | ha
      · exact h2 a ha hs
      · exact absurd hs (h1' a ha)
    · have : (announced (newLog s s')).filter (fun a => decide (a.src = src)) = [] := by
        rw [List.filter_eq_nil_iff]
        intro a ha; simpa using h1' a ha
      rw [this, List.append_nil]
      exact hi.mono
  -- the case of a transmission
  have trans : ∀ (g : Bytes) (dest : Addr), (∀ a ∈ announced s.log, a.src = src → a.time ≤ s'.now) →
      (s'.dev src).busy = true →
      txc src s'.pending = [(s'.now + (E.txTime (s.dev src).rate g.length + (s.dev src).gap), dest)] →
      (∀ f t, (t, Ev.phyTxBegin src f) ∈ newLog s s' → f = g) →
      (∀ a ∈ announced s.log ++ announced (newLog s s'), a.src = src →
        ((s'.dev src).busy = false → a.time ≤ s'.now) ∧ (∀ x ∈ txc src s'.pending, a.time ≤ x.1)) ∧
      ((announced s.log).filter (fun a => decide (a.src = src)) ++
        (announced (newLog s s')).filter (fun a => decide (a.src = src))).Pairwise (fun a b => a.time ≤ b.time) := by
    intro g dest hold hb htx hf
    have hnew' : ∀ a ∈ announced (newLog s s'), a.src = src → a.time = s'.now + E.txTime (s.dev src).rate g.length := by
      intro a ha hs
      obtain ⟨f, h1, h2⟩ := hnew a ha hs
      rw [h2, hf f _ h1]
    constructor
    · intro a ha hs
      refine ⟨fun hb' => (by rw [hb] at hb'; exact absurd hb' (by simp)), ?_⟩
      intro x hx
      rw [htx, List.mem_singleton] at hx
      rw [hx]
      simp only
      rcases List.mem_append.mp ha with ha | ha
      · have := hold a ha hs; omega
      · have := hnew' a ha hs; omega
    · rw [List.pairwise_append]
      refine ⟨hi.mono, ?_, ?_⟩
      · rw [List.pairwise_iff_forall_sublist]
        intro a b hab
        have ha := hab.subset (show a ∈ [a, b] by simp)
        have hb := hab.subset (show b ∈ [a, b] by simp)
        rw [List.mem_filter] at ha hb
        have h1 := hnew' a ha.1 (by simpa using ha.2)
        have h2 := hnew' b hb.1 (by simpa using hb.2)
        omega
      · intro a ha b hb
        rw [List.mem_filter] at ha hb
        have h1 := hold a ha.1 (by simpa using ha.2)
        have h2 := hnew' b hb.1 (by simpa using hb.2)
        omega
  cases devStep_step hg.inv.dev h src with
  | keep acc hb hc ht hacc hq hl =>
    refine quiet (Or.inr ?_) ?_
    · intro a ha hs
      obtain ⟨f, h1, _⟩ := hnew a ha hs
      cases hph hl f _ h1
    · intro a ha hs
      obtain ⟨b1, b2⟩ := hi.bound a ha hs
      rw [hb, ht]
      exact ⟨fun hh => Nat.le_trans (b1 hh) hnow, b2⟩
  | start f dest hop hb hb' hc hq ht hl =>
    refine trans f dest ?_ hb' ht ?_
    · intro a ha hs
      exact Nat.le_trans ((hi.bound a ha hs).1 hb) hnow
    · intro g t hm
      simpa using hph hl g t hm
  | stop f dest hb hb' hc hq hq' ht hl =>
    refine quiet (Or.inr ?_) ?_
    · intro a ha hs
      obtain ⟨f, h1, _⟩ := hnew a ha hs
      simpa using hph hl f _ h1
    · intro a ha hs
      obtain ⟨b1, b2⟩ := hi.bound a ha hs
      rw [((inv_step hg.inv h).dev src |>.ready hb').2.2]
      refine ⟨fun _ => b2 (s'.now, dest) (by rw [ht]; simp), ?_⟩
      intro x hx; cases hx
  | next f g dest rest hb hb' hc hc' hq hq' ht ht' hl =>
    refine trans g dest ?_ hb' ht' ?_
    · intro a ha hs
      exact (hi.bound a ha hs).2 (s'.now, dest) (by rw [ht]; simp)
    · intro g' t hm
      simpa using hph hl g' t hm

theorem serial_exec {E : Env} {s s' : Sys} {ops : List Op} {src : DevId} (h0 : Initial s)
    (h : exec E s ops = .ok s')
    (hser : ∀ t c f dst tx del, (t, Ev.txrx c f src dst tx del) ∈ s'.log → del = tx) : SerialInv src s' := by
  have key : ∀ (ops : List Op) (s : Sys), Good s → exec E s ops = .ok s' → SerialInv src s → SerialInv src s' := by
    intro ops
    induction ops with
    | nil => intro s _ h hi; injection h with h; subst h; exact hi
    | cons op ops ih =>
      intro s hg h hi
      simp only [exec] at h
      rw [Outcome.bind_eq_ok] at h
      obtain ⟨s1, h1, h2⟩ := h
      exact ih s1 (good_step hg h1) h2
        (serial_step hg h1 (fun t c f dst tx del hm => hser t c f dst tx del (newLog_sub hg h1 h2 hm)) hi)
  refine key ops s (good_initial h0) h ⟨?_, ?_⟩
  · rw [h0.log]; simp [announced]
  · rw [h0.log]; simp [announced]

end Verif
