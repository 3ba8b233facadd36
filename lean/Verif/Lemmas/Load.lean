import Verif.Spec.Load
import Verif.Lemmas.Relay
import Verif.Props.Reach
import Verif.Props.EndToEnd
/-! Delivery of packets while other packets are on their way: lemmas for C93. -/

namespace Verif
open Spec

/-- Every prefix of a proper history leads to a fit state. -/
theorem fit_prefix {E : Env} {s0 u : Sys} {ops o1 o2 : List Op} (h0 : Initial s0) (hpr : ProperRun E s0 ops) (ho : ops = o1 ++ o2)
    (hu : exec E s0 o1 = .ok u) : Fit E u := by
  refine reached_fit h0 ?_ hu
  intro a op b s1 hab hs1
  exact hpr a op (b ++ o2) s1 (by rw [ho, hab]; simp) hs1

/-- The operation that puts a frame on the air announces a reception at every device of the audience that is in reach, seen from
the state after the operation. -/
theorem begin_pends {E : Env} {s s' : Sys} {op : Op} (hi : Inv s) (hw : Wired s) (h : step E s op = .ok s') {b : Time} {d : DevId} {f : Bytes}
    (hm : (b, Ev.phyTxBegin d f) ∈ newLog s s') :
    b = s'.now ∧ ∃ c dest, (s'.dev d).chan = some c ∧ (s'.now, Ev.onAir d f dest) ∈ s'.log ∧
      ∀ x ∈ audience s' c (s'.dev d).chanSlot dest, ∀ del pw,
        reachDev E s' c d (E.txTime (s'.dev d).rate f.length) x = some (del, pw) →
        (⟨s'.now + del, .receive x f d pw⟩ : Pending) ∈ s'.pending := by
  have hnl : ∀ l, s'.log = s.log ++ l → newLog s s' = l := by
    intro l hl; unfold newLog; rw [hl, List.drop_left]
  cases netStep_step hi hw h with
  | quiet l hlog hl hp => rw [hnl l hlog] at hm; exact absurd (hl _ hm) (by simp [MuteEv])
  | recv d' g src rx l hop hp hlog hl hd hc hcall =>
    rw [hnl _ hlog] at hm
    rcases List.mem_cons.mp hm with hm | hm
    · cases hm
    · obtain ⟨e, he, heq⟩ := List.mem_map.mp hm
      injection heq with h1 h2
      subst h2
      exact absurd (hl _ he) (by simp [RxEv])
  | tx d' g dest c rs b' ps l1 l2 hchan hrs hb hps hp hlog hl1 hl2 hd hc =>
    rw [hnl _ hlog] at hm
    have hm' : b = s'.now ∧ d = d' ∧ f = g := by
      simp only [List.mem_append] at hm
      rcases hm with hm | hm | hm | hm | hm
      · exact absurd (hl1 _ hm) (by simp [MuteEv])
      · simpa using hm
      · obtain ⟨r, _, hr⟩ := List.mem_map.mp hm
        simp [Recv.entry] at hr
      · cases b' <;> simp at hm
      · exact absurd (hl2 _ hm) (by simp [MuteEv])
    obtain ⟨hb', rfl, rfl⟩ := hm'
    refine ⟨hb', c, dest, by rw [(hd d).chan]; exact hchan, by rw [hlog]; simp, ?_⟩
    intro x hx del pw hr
    rw [(hd d).chanSlot, audience_congr hc (fun x => (hd x).addr)] at hx
    rw [hp, (insertAll_perm _ _).mem_iff, List.mem_append]
    left
    refine List.mem_map.mpr ⟨⟨x, del, pw⟩, ?_, rfl⟩
    rw [hrs]
    refine List.mem_filterMap.mpr ⟨x, hx, ?_⟩
    rw [recvOf_eq]
    have : reachDev E { s with now := s'.now } c d (E.txTime (s.dev d).rate f.length) x = some (del, pw) := by
      rw [← hr]
      unfold reachDev
      simp only [(hd d).node, (hd x).node, (hd d).txPower, (hd d).rate]
    rw [this]
    rfl

/-- A scheduled reception stays scheduled or happens when its time has come. -/
theorem pending_runs {E : Env} {t : Time} {x : DevId} {f : Bytes} {d : DevId} {pw : Power} (ops : List Op) : ∀ {s s' : Sys}, Inv s → Wired s →
    exec E s ops = .ok s' → (⟨t, .receive x f d pw⟩ : Pending) ∈ s.pending →
    (⟨t, .receive x f d pw⟩ : Pending) ∈ s'.pending ∨ ∃ o1 o2 u u', ops = o1 ++ .run :: o2 ∧ exec E s o1 = .ok u ∧
      run E u = .ok u' ∧ exec E u' o2 = .ok s' ∧ u'.now = t ∧ u'.dev = u.dev ∧
      receive E { u with now := t, pending := u'.pending } x f d pw = .ok u' := by
  induction ops with
  | nil =>
    intro s s' _ _ h hq
    injection h with h; subst h
    exact Or.inl hq
  | cons op ops ih =>
    intro s s' hi hw h hq
    simp only [exec] at h
    rw [Outcome.bind_eq_ok] at h
    obtain ⟨s1, h1, h2⟩ := h
    have later : (⟨t, .receive x f d pw⟩ : Pending) ∈ s1.pending → (⟨t, .receive x f d pw⟩ : Pending) ∈ s'.pending ∨
        ∃ o1 o2 u u', op :: ops = o1 ++ .run :: o2 ∧ exec E s o1 = .ok u ∧
      run E u = .ok u' ∧ exec E u' o2 = .ok s' ∧ u'.now = t ∧ u'.dev = u.dev ∧
      receive E { u with now := t, pending := u'.pending } x f d pw = .ok u' := by
      intro hq1
      rcases ih (inv_step hi h1) (wired_step hw h1) h2 hq1 with h | ⟨o1, o2, u, u', rfl, hu, hr⟩
      · exact Or.inl h
      · exact Or.inr ⟨op :: o1, o2, u, u', rfl, by simp only [exec, h1, Outcome.ok_bind]; exact hu, hr⟩
    cases netStep_step hi hw h1 with
    | quiet l hlog hl hpp =>
      rcases hpp with hpp | ⟨d, dest, hpp⟩
      · exact later (by rw [hpp]; exact hq)
      · rw [hpp] at hq
        rcases List.mem_cons.mp hq with hq | hq
        · cases hq
        · exact later hq
    | recv d' g src rx l hop hpp hlog hl hd hc hcall =>
      rw [hpp] at hq
      rcases List.mem_cons.mp hq with hq | hq
      · injection hq with hq1 hq2
        injection hq2 with hq2 hq3 hq4 hq5
        subst hq1; subst hq2; subst hq3; subst hq4; subst hq5; subst hop
        exact Or.inr ⟨[], ops, s, s1, rfl, rfl, h1, h2, rfl, hd, hcall⟩
      · exact later hq
    | tx d' g dest c rs b' ps' l1 l2 hchan hrs hb hps hpp hlog hl1 hl2 hd hc =>
      refine later ?_
      rw [hpp, (insertAll_perm _ _).mem_iff, List.mem_append, (insertPending_perm _ _).mem_iff, List.mem_cons]
      right; right
      rcases hps with ⟨rfl, _⟩ | ⟨_, hps, _⟩
      · exact hq
      · rw [hps] at hq
        rcases List.mem_cons.mp hq with hq | hq
        · cases hq
        · exact hq

theorem newLog_of {s s' : Sys} {l : List (Time × Ev)} (h : s'.log = s.log ++ l) : newLog s s' = l := by
  unfold newLog; rw [h, List.drop_left]

theorem start_noRet {E : Env} {s s' : Sys} {d : DevId} {f : Bytes} {dest : Addr} (h : transmitStart E s d f dest = .ok s') :
    s'.now = s.now ∧ ∃ l, s'.log = s.log ++ l ∧ ∀ e ∈ l, ∀ x p a pr b g, e.2 ≠ .sendRet x p a pr b g := by
  obtain ⟨_, c, src, rs, b, _, _, _, rfl⟩ := transmitStart_ok h
  refine ⟨rfl, _, rfl, ?_⟩
  intro e he x p a pr b' g heq
  simp only [List.mem_append, List.mem_cons, List.not_mem_nil, or_false, List.mem_map] at he
  rcases he with (rfl | rfl) | ⟨r, _, rfl⟩ | he
  · cases heq
  · cases heq
  · cases heq
  · cases b
    · simp only [Bool.false_eq_true, if_false, List.mem_singleton] at he
      subst he; cases heq
    · simp at he

/-- `Send` returns while `Send` is called. -/
theorem sendRet_step {E : Env} {s s' : Sys} {op : Op} (h : step E s op = .ok s') {t : Time} {d : DevId} {p f : Bytes} {a : Addr}
    {proto : UInt16} {b : Bool} (hm : (t, Ev.sendRet d p a proto b f) ∈ newLog s s') :
    op = .send d p a proto ∧ t = s.now ∧ s'.now = s.now ∧ (b = true → ∃ m, a = .mac m ∧ f = addHeader E.fcs p (s.dev d).addr m proto) := by
  have none : ∀ l, s'.log = s.log ++ l → (∀ e ∈ l, ∀ x p a pr b g, e.2 ≠ .sendRet x p a pr b g) → False := by
    intro l hl hn
    rw [newLog_of hl] at hm
    exact hn _ hm _ _ _ _ _ _ rfl
  have nil : s'.log = s.log → False := fun hl => none [] (by simp [hl]) (by simp)
  cases op with
  | send d' p' a' proto' =>
    simp only [step] at h
    rcases send_ok h with ⟨_, rfl⟩ | ⟨_, _, m', rfl, f', hf', hcase⟩
    · rw [newLog_of rfl] at hm
      simp only [List.mem_cons, Prod.mk.injEq, reduceCtorEq, and_false, Ev.sendRet.injEq, List.not_mem_nil, or_false, false_or] at hm
      obtain ⟨rfl, rfl, rfl, rfl, rfl, rfl, rfl⟩ := hm
      exact ⟨rfl, rfl, rfl, fun h => by cases h⟩
    · rcases hcase with ⟨_, rfl⟩ | ⟨_, _, rfl⟩ | ⟨_, _, g, rest, s3, _, hts, rfl⟩
      · rw [newLog_of rfl] at hm
        simp only [List.mem_cons, Prod.mk.injEq, reduceCtorEq, and_false, Ev.sendRet.injEq, List.not_mem_nil, or_false, false_or] at hm
        obtain ⟨rfl, rfl, rfl, rfl, rfl, rfl, rfl⟩ := hm
        exact ⟨rfl, rfl, rfl, fun h => by cases h⟩
      · rw [newLog_of rfl] at hm
        simp only [List.mem_cons, Prod.mk.injEq, reduceCtorEq, and_false, Ev.sendRet.injEq, List.not_mem_nil, or_false, false_or] at hm
        obtain ⟨rfl, rfl, rfl, rfl, rfl, rfl, rfl⟩ := hm
        exact ⟨rfl, rfl, rfl, fun _ => ⟨m', rfl, hf'⟩⟩
      · obtain ⟨hn, l, hl, hno⟩ := start_noRet hts
        simp only at hn hl
        rw [newLog_of (l := [(s.now, Ev.macTx d' f'), (s.now, .promiscSniffer d' g), (s.now, .sniffer d' g)] ++ (l ++
          [(s3.now, .sendRet d' p' (.mac m') proto' true f')])) (by simp [hl])] at hm
        simp only [List.mem_append, List.mem_cons, Prod.mk.injEq, reduceCtorEq, and_false, List.not_mem_nil, or_false,
          false_or] at hm
        rcases hm with hm | hm
        · exact absurd rfl (hno _ hm _ _ _ _ _ _)
        · simp only [Ev.sendRet.injEq] at hm
          obtain ⟨rfl, rfl, rfl, rfl, rfl, rfl, rfl⟩ := hm
          exact ⟨rfl, hn, hn, fun _ => ⟨m', rfl, hf'⟩⟩
  | run =>
    exfalso
    simp only [step, run] at h
    split at h
    · injection h with h; subst h; exact nil rfl
    · rename_i q ps hp
      obtain ⟨t', act⟩ := q
      cases act with
      | receive y g src pw =>
        simp only [dispatch] at h
        obtain ⟨l, hl, rfl⟩ := receive_ok h
        refine none _ rfl ?_
        intro e he x p a pr b g heq
        rcases List.mem_cons.mp he with rfl | he
        · cases heq
        · obtain ⟨e', he', rfl⟩ := List.mem_map.mp he
          simp only at heq
          subst heq
          exact (hl _ he').elim
      | txComplete d' dest =>
        simp only [dispatch] at h
        obtain ⟨_, _, g, _, hcase⟩ := transmitComplete_ok h
        rcases hcase with ⟨_, rfl⟩ | ⟨g', rest, _, hts⟩
        · refine none _ rfl ?_
          intro e he x p a pr b g heq
          simp only [List.mem_singleton] at he
          subst he; cases heq
        · obtain ⟨hn, l, hl, hno⟩ := start_noRet hts
          simp only at hl
          refine none ([(t', Ev.phyTxEnd d' g), (t', .sniffer d' g'), (t', .promiscSniffer d' g')] ++ l) (by simp [hl]) ?_
          intro e he x p a pr b g heq
          rcases List.mem_append.mp he with he | he
          · simp only [List.mem_cons, List.not_mem_nil, or_false] at he
            rcases he with rfl | rfl | rfl <;> cases heq
          · exact hno _ he _ _ _ _ _ _ heq
  | sendFrom d' p' s' a' pr' =>
    exfalso
    simp only [step, Sys.emit] at h; injection h with h; subst h
    exact none _ rfl (by simp)
  | attach d' c =>
    exfalso
    simp only [step, attach] at h
    split at h
    · injection h with h; subst h
      exact none [(s.now, .linkChange d'), (s.now, .attachRet d' c (s.chan c).link.length)] (by simp [Sys.emit, Sys.setDev, Sys.setChan]) (by simp)
    · split at h
      · cases h
      · split at h
        all_goals
          injection h with h; subst h
          exact none [(s.now, .linkChange d'), (s.now, .attachRet d' c (s.chan c).link.length)] (by simp [Sys.emit, Sys.setDev, Sys.setChan]) (by simp)
  | detach c slot =>
    exfalso
    obtain ⟨_, _, _, ⟨d', _, _, rfl⟩ | ⟨_, rfl⟩⟩ := detach_ok h
    · exact none _ rfl (by simp)
    · exact none _ rfl (by simp)
  | setAddress d' a' =>
    exfalso
    simp only [step] at h
    split at h
    · injection h with h; subst h; exact nil rfl
    · cases h
  | wait dt =>
    exfalso
    simp only [step] at h
    split at h
    all_goals
      injection h with h; subst h; exact nil rfl
  | _ => exfalso; simp only [step] at h; injection h with h; subst h; exact nil rfl

/-- A `Send` that was accepted: when it was called, and what the frame is. -/
theorem sendRet_origin {E : Env} {s0 s : Sys} {ops : List Op} (h0 : Initial s0) (h : exec E s0 ops = .ok s) {t : Time} {d : DevId} {p : Bytes}
    {m : Mac48} {proto : UInt16} {f : Bytes} (hm : (t, Ev.sendRet d p (.mac m) proto true f) ∈ s.log) :
    ∃ o1 o2 u, ops = o1 ++ o2 ∧ exec E s0 o1 = .ok u ∧ u.now = t ∧ f = addHeader E.fcs p (u.dev d).addr m proto := by
  obtain ⟨o1, op, o2, s1, s2, ho, h1, h2, h3, h4⟩ := log_entry_origin h0 h hm
  obtain ⟨rfl, ht, _, hf⟩ := sendRet_step h2 h4
  obtain ⟨m', hm', hf⟩ := hf rfl
  injection hm' with hm'; subst hm'
  exact ⟨o1, _, s1, ho, h1, ht.symm, hf⟩

theorem mem_begunT {d : DevId} {log : List (Time × Ev)} {b : Time} {f : Bytes} (h : (b, f) ∈ begunT d log) : (b, Ev.phyTxBegin d f) ∈ log := by
  unfold begunT projT at h
  obtain ⟨⟨t, e⟩, he, hx⟩ := List.mem_filterMap.mp h
  cases e <;> first | (cases hx; done) | skip
  rename_i d' f'
  simp only [begunEv] at hx
  split at hx
  · simp only [Option.map_some, Option.some.injEq, Prod.mk.injEq] at hx
    obtain ⟨rfl, rfl⟩ := hx
    rename_i hd; subst hd; exact he
  · cases hx

theorem mem_acceptedT {d : DevId} {log : List (Time × Ev)} {t : Time} {p : Bytes} {a : Addr} {proto : UInt16} {f : Bytes}
    (h : (t, Ev.sendRet d p a proto true f) ∈ log) : (t, f) ∈ acceptedT d log := by
  unfold acceptedT projT
  exact List.mem_filterMap.mpr ⟨_, h, by simp [acceptedEv]⟩

theorem effectivePower_mono (v : Dev) {a b : Power} (h : a ≤ b) : effectivePower v a ≤ effectivePower v b := by
  unfold effectivePower
  cases v.leo
  · exact h
  · show a + v.rxGain - v.rxLoss ≤ b + v.rxGain - v.rxLoss
    rw [Rat.sub_eq_add_neg, Rat.sub_eq_add_neg]
    exact Rat.add_le_add_right.mpr (Rat.add_le_add_right.mpr h)

theorem log_mono {E : Env} {s0 u s : Sys} {o1 o2 : List Op} (h0 : Initial s0) (h1 : exec E s0 o1 = .ok u) (h2 : exec E u o2 = .ok s)
    {e : Time × Ev} (he : e ∈ u.log) : e ∈ s.log := by
  refine (exec_induct (P := fun x => Good x ∧ e ∈ x.log) ?_ ⟨good_exec h0 h1, he⟩ h2).2
  rintro v v' op ⟨hv, hm⟩ hs
  exact ⟨good_step hv hs, by rw [log_prefix_step hv.inv hv.wired hs]; simp [hm]⟩

/-- The frame of an accepted `Send` arrives in time. -/
theorem stage_arrives {E : Env} (hE : ErrorFree E) {s0 s : Sys} {ops : List Op} (h0 : Initial s0) (hpr : ProperRun E s0 ops)
    (h : exec E s0 ops = .ok s) {g : Stage} {t0 T : Time} (hok : StageOk E s0 ops s t0 T g)
    (hd : During E s0 ops t0 (T + g.queueing s0) (OverLeo g) ∨ OnlyTo g.src g.to ops) {t : Time} {f : Bytes}
    (hm : (t, Ev.sendRet g.src g.packet (.mac g.to) g.proto true f) ∈ s.log) (ht : t0 ≤ t) (hT : t ≤ T) (hlate : t + g.bound s0 < s.now) :
    ∃ o1 o2 u u' t', ops = o1 ++ .run :: o2 ∧ exec E s0 o1 = .ok u ∧ run E u = .ok u' ∧ exec E u' o2 = .ok s ∧
      (t', Ev.rxCallback g.dst g.packet g.proto g.own) ∈ newLog u u' ∧ t' = u'.now ∧ t ≤ t' ∧ t' ≤ t + g.bound s0 := by
  -- the frame
  obtain ⟨a1, a2, ua, ha, hua, hta, hfa⟩ := sendRet_origin h0 h hm
  have hown := hok.own a1 a2 ua ha hua (by omega) (by omega)
  rw [hown] at hfa
  have hflen : f.length = max 64 (g.packet.length + 26) := by rw [hfa]; exact (C13_frame_layout _ _ _ _ _).2
  have hsm := hok.small
  have hdec : decode E.fcs f = .ok (.good g.packet g.proto g.own g.to) := by
    rw [hfa, decode_addHeader, if_pos (by omega)]
  -- on the air
  obtain ⟨i, hi⟩ := List.mem_iff_getElem?.mp (mem_acceptedT hm)
  have hbd : g.bound s0 = g.queueing s0 + g.delay := rfl
  have hq : g.queueing s0 = (s0.dev g.src).cap * g.work := rfl
  obtain ⟨b, hb, htb, hbt⟩ := C85_on_air_in_time h0 h hok.steady hok.work hi (by omega)
  have hbm := mem_begunT (List.mem_of_getElem? hb)
  obtain ⟨o1, op, o2, s1, s2, ho, h1, h2, h3, h4⟩ := log_entry_origin h0 h hbm
  have hg1 := good_exec h0 h1
  obtain ⟨hbn, c, dest, hc, hair, hpend⟩ := begin_pends hg1.inv hg1.wired h2 h4
  have h12 := exec_snoc h1 h2
  have ho' : ops = (o1 ++ [op]) ++ o2 := by rw [ho]; simp
  obtain ⟨c', hc', hleo, hisl, del, pw, hreach, hdel, hpw⟩ := hok.reach _ _ _ ho' h12 (by omega) (by omega)
  rw [hc] at hc'; injection hc' with hc'; subst hc'
  have hfit := fit_prefix h0 hpr ho' h12
  have hx : g.dst ∈ audience s2 c (s2.dev g.src).chanSlot dest := by
    cases hk : (s2.chan c).kind with
    | leo =>
      exact ((audience_leo (dest := dest) (hfit.index c) hk (hfit.wired _ c hc)).1 g.dst).mpr (hleo hk)
    | isl =>
      rcases hd with hd | hd
      · have := hd _ _ _ ho' h12 (by omega) (by omega) c hc
        rw [hk] at this; cases this
      · have hdest := C09_single_destination_partial h0 hd h _ _ _ (log_mono h0 h12 h3 hair)
        obtain ⟨hs, ha⟩ := hisl hk
        rw [hdest, ← ha]
        exact (audience_unicast hfit hc hleo (fun _ => hs)).1
  rw [← hflen] at hreach
  have hq := hpend _ hx _ _ hreach
  have hg2 := good_exec h0 h12
  rcases pending_runs o2 hg2.inv hg2.wired h3 hq with hq | ⟨o3, o4, u, u', ho2, hu, hru, hu', hn, hdev, hrec⟩
  · exfalso
    have := (good_exec h0 h).inv.clock.future _ hq
    simp only at this
    omega
  · have h13 : exec E s0 (o1 ++ [op] ++ o3) = .ok u := by rw [exec_append, h12, Outcome.ok_bind]; exact hu
    have ho3 : ops = (o1 ++ [op] ++ o3) ++ (.run :: o4) := by rw [ho', ho2]; simp
    have h14 : exec E s0 (o1 ++ [op] ++ o3 ++ [.run]) = .ok u' := exec_snoc h13 hru
    have hl := hok.listens (o1 ++ [op] ++ o3 ++ [.run]) o4 u' (by rw [ho3]; simp) h14 (by omega) (by omega)
    unfold Listening at hl
    have htake : TakesUp (u.dev g.dst) g.dst g.src g.to pw := by
      rw [← hdev]
      exact ⟨hl.1, Rat.le_trans hl.2.1 (effectivePower_mono _ hpw), hl.2.2⟩
    have hgu := good_exec h0 h13
    obtain ⟨l, hl1, hC⟩ := C14_receive_filter hrec hdec
    simp only [show ∀ a b c e, E.corrupt a b c e = false from hE, Audible, and_true] at hC
    have hup := hC.1 ⟨htake.1, htake.2.1, htake.2.2⟩
    have hmem : Ev.rxCallback g.dst g.packet g.proto g.own ∈ l := by
      have : (g.packet, g.proto, g.own) ∈ upcalls g.dst l := by rw [hup]; exact List.mem_singleton_self _
      unfold upcalls at this
      obtain ⟨e, he, hx⟩ := List.mem_filterMap.mp this
      cases e <;> first | (cases hx) | skip
      rename_i y p q a
      simp only at hx
      split at hx
      · rename_i hy
        injection hx with hx
        simp only [Prod.mk.injEq] at hx
        obtain ⟨rfl, rfl, rfl⟩ := hx
        subst hy
        exact he
      · cases hx
    have hlog : u'.log = u.log ++ ((s2.now + del, .recvCall g.dst f g.src pw) :: l.map fun e => (s2.now + del, e)) := by
      rw [hl1]
    refine ⟨_, o4, u, u', s2.now + del, ho3, h13, hru, hu', ?_, hn.symm, by omega, by omega⟩
    rw [newLog_of hlog]
    exact List.mem_cons_of_mem _ (List.mem_map.mpr ⟨_, hmem, rfl⟩)

/-- `Send` returns. -/
theorem send_returns {E : Env} {s s' : Sys} {d : DevId} {p : Bytes} {dest : Addr} {proto : UInt16} (h : send E s d p dest proto = .ok s') :
    ∃ b f, (s.now, Ev.sendRet d p dest proto b f) ∈ s'.log := by
  rcases send_ok h with ⟨_, rfl⟩ | ⟨_, _, m, rfl, f, _, ⟨_, rfl⟩ | ⟨_, _, rfl⟩ | ⟨_, _, g, rest, s3, _, hts, rfl⟩⟩
  · exact ⟨false, p, by simp⟩
  · exact ⟨false, f, by simp⟩
  · exact ⟨true, f, by simp⟩
  · obtain ⟨hn, _⟩ := start_noRet hts
    simp only at hn
    exact ⟨true, f, by simp [hn]⟩

/-- One event while packets are forwarded is the event followed by the `Send` decided on. -/
theorem runK_carries {E : Env} {R : Forwarder} {s s' : Sys} (hg : Good s) (h : runK E (forwardSink E R) s = .ok s') :
    ∃ u sends, run E s = .ok u ∧ exec E u sends = .ok s' ∧
      (sends = [] ∨ ∃ t x p proto sa d p' dest proto', (t, Ev.rxCallback x p proto sa) ∈ newLog s u ∧
        R x p proto sa = some (d, p', dest, proto') ∧ sends = [.send d p' dest proto']) ∧
      ∀ t x p proto sa, (t, Ev.rxCallback x p proto sa) ∈ newLog s u → ∀ d p' dest proto', R x p proto sa = some (d, p', dest, proto') →
        sends = [.send d p' dest proto'] := by
  rw [runK_cases] at h
  have hups : ∀ {u t x p proto sa}, step E s .run = .ok u → (t, Ev.rxCallback x p proto sa) ∈ newLog s u → (t, x, p, proto, sa) ∈ allUps (newLog s u) := by
    intro u t x p proto sa _ hm
    unfold allUps
    exact List.mem_filterMap.mpr ⟨_, hm, rfl⟩
  cases hp : s.pending with
  | nil =>
    rw [hp] at h
    simp only at h
    refine ⟨s', [], h, rfl, Or.inl rfl, ?_⟩
    intro t x p proto sa hm
    unfold run at h
    rw [hp] at h
    injection h with h; subst h
    simp [newLog] at hm
  | cons q ps =>
    obtain ⟨tq, a⟩ := q
    cases a with
    | txComplete d dest =>
      rw [hp] at h
      simp only at h
      refine ⟨s', [], h, rfl, Or.inl rfl, ?_⟩
      intro t x p proto sa hm
      have hs : step E s .run = .ok s' := h
      have := hups hs hm
      have hc := h
      unfold run at hc
      rw [hp] at hc
      simp only [dispatch] at hc
      have hc := ups_complete hc
      rw [log_prefix_step hg.inv hg.wired hs, allUps_append] at hc
      simp only at hc
      rw [List.append_right_eq_self.mp hc] at this
      cases this
    | receive y g src pw =>
      rw [hp] at h
      simp only at h
      rw [Outcome.bind_eq_ok] at h
      obtain ⟨u, hu, hre⟩ := h
      have hs : step E s .run = .ok u := hu
      have hc := hu
      unfold run at hc
      rw [hp] at hc
      simp only [dispatch] at hc
      have hr := ups_receive hc
      rw [log_prefix_step hg.inv hg.wired hs, allUps_append] at hr
      simp only at hr
      have hr := List.append_cancel_left hr
      rw [← log_prefix_step hg.inv hg.wired hs] at hr
      unfold react at hre
      split at hre
      · rename_i t x p proto sa hl
        rw [hl] at hr
        simp only at hr
        have hm : (t, Ev.rxCallback x p proto sa) ∈ newLog s u := by
          have : (t, x, p, proto, sa) ∈ allUps (newLog s u) := by rw [hr]; exact List.mem_singleton_self _
          unfold allUps at this
          obtain ⟨e, he, hx⟩ := List.mem_filterMap.mp this
          obtain ⟨te, e⟩ := e
          cases e <;> first | (cases hx; done) | skip
          simp only [Option.some.injEq, Prod.mk.injEq] at hx
          obtain ⟨rfl, rfl, rfl, rfl, rfl⟩ := hx
          exact he
        have huniq : ∀ {t' x' p' proto' sa'}, (t', Ev.rxCallback x' p' proto' sa') ∈ newLog s u → x' = x ∧ p' = p ∧ proto' = proto ∧ sa' = sa := by
          intro t' x' p' proto' sa' hm'
          have := hups hs hm'
          rw [hr] at this
          simp only [List.mem_singleton, Prod.mk.injEq] at this
          exact this.2
        cases hR : R x p proto sa with
        | none =>
          rw [hR] at hre
          injection hre with hre; subst hre
          refine ⟨u, [], hu, rfl, Or.inl rfl, ?_⟩
          intro t' x' p' proto' sa' hm' d p'' dest proto'' hR'
          obtain ⟨rfl, rfl, rfl, rfl⟩ := huniq hm'
          rw [hR] at hR'; cases hR'
        | some r =>
          obtain ⟨d, p', dest, proto'⟩ := r
          rw [hR] at hre
          refine ⟨u, [.send d p' dest proto'], hu, by simp only [exec, step]; simp only at hre; rw [hre]; rfl,
            Or.inr ⟨t, x, p, proto, sa, d, p', dest, proto', hm, hR, rfl⟩, ?_⟩
          intro t' x' q proto2 sa' hm' d' p'' dest' proto'' hR'
          obtain ⟨rfl, rfl, rfl, rfl⟩ := huniq hm'
          rw [hR] at hR'
          simp only [Option.some.injEq, Prod.mk.injEq] at hR'
          obtain ⟨rfl, rfl, rfl, rfl⟩ := hR'
          rfl
      · rename_i hl
        injection hre with hre; subst hre
        have hnil : allUps (newLog s u) = [] := by
          rw [hr]
          split
          · rename_i t x p proto sa hl'; exact absurd hl' (hl t x p proto sa)
          · rfl
        refine ⟨u, [], hu, rfl, Or.inl rfl, ?_⟩
        intro t x p proto sa hm
        have := hups hs hm
        rw [hnil] at this
        cases this

end Verif
