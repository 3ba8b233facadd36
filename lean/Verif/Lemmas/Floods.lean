import Verif.Spec.Floods
import Verif.Lemmas.Converse
import Verif.Lemmas.Load
import Verif.Props.Timing
/-! Many floods at once. -/

namespace Verif
open Spec

theorem callsMade_append (a b : List (Time × Ev)) : callsMade (a ++ b) = callsMade a ++ callsMade b := List.filterMap_append

theorem callsMade_none {l : List (Time × Ev)} (h : ∀ e ∈ l, ∀ x p a pr b g, e.2 ≠ .sendRet x p a pr b g) : callsMade l = [] := by
  unfold callsMade
  rw [List.filterMap_eq_nil_iff]
  intro e he
  split
  · rename_i heq; exact absurd heq (h e he _ _ _ _ _ _)
  · rfl

theorem calls_send {E : Env} {s s' : Sys} {d : DevId} {p : Bytes} {dest : Addr} {proto : UInt16} (h : send E s d p dest proto = .ok s') :
    callsMade s'.log = callsMade s.log ++ [(d, p, dest, proto)] := by
  rcases send_ok h with ⟨_, rfl⟩ | ⟨_, _, m, rfl, f, _, ⟨_, rfl⟩ | ⟨_, _, rfl⟩ | ⟨_, _, g, rest, s3, _, hts, rfl⟩⟩
  · rw [callsMade_append]; rfl
  · rw [callsMade_append]; rfl
  · rw [callsMade_append]; rfl
  · obtain ⟨_, l, hl, hno⟩ := start_noRet hts
    simp only [hl, callsMade_append, callsMade_none hno, List.append_nil]
    simp [callsMade]

theorem calls_other {E : Env} {s s' : Sys} {op : Op} (hg : Good s) (hop : ∀ d p dest proto, op ≠ .send d p dest proto)
    (h : step E s op = .ok s') : callsMade s'.log = callsMade s.log := by
  have hn : callsMade (newLog s s') = [] := callsMade_none (by
    rintro ⟨t, e⟩ he x p a pr b g rfl
    exact hop _ _ _ _ (sendRet_step h he).1)
  rw [log_prefix_step hg.inv hg.wired h, callsMade_append, hn, List.append_nil]

theorem calls_sends {E : Env} : ∀ (l : List (DevId × Bytes × Addr × UInt16)) {s s' : Sys}, sendAll E l s = .ok s' →
    callsMade s'.log = callsMade s.log ++ l := by
  intro l
  induction l with
  | nil => intro s s' h; obtain rfl := Outcome.ok.inj h; simp
  | cons c l ih =>
    intro s s' h
    obtain ⟨d, p, dest, proto⟩ := c
    simp only [sendAll] at h
    rw [Outcome.bind_eq_ok] at h
    obtain ⟨u, h1, h2⟩ := h
    rw [ih h2, calls_send h1, List.append_assoc, List.singleton_append]

theorem ups_other {E : Env} {s s' : Sys} {op : Op} (hg : Good s) (hop : op ≠ .run) (h : step E s op = .ok s') :
    allUps s'.log = allUps s.log := by
  rw [log_prefix_step hg.inv hg.wired h, allUps_append]
  have : allUps (newLog s s') = [] := by
    unfold allUps
    rw [List.filterMap_eq_nil_iff]
    rintro ⟨t, e⟩ he
    cases e with
    | rxCallback d p proto sa =>
      obtain ⟨_, _, _, _, hr, _⟩ := rxCallback_step hg.inv hg.wired h he
      exact absurd hr hop
    | _ => rfl
  rw [this, List.append_nil]

/-- One event of a flood, taken apart. -/
theorem event_parts {E : Env} {R : Flooder} {t u : Sys} (h : flood E R 1 t = .ok u) :
    ∃ v, run E t = .ok v ∧ ((allUps v.log = allUps t.log ∧ u = v) ∨
      ∃ e, allUps v.log = allUps t.log ++ [e] ∧ sendAll E (R v e.2.1 e.2.2.1 e.2.2.2.1 e.2.2.2.2) v = .ok u) := by
  rw [C98_answers, Outcome.bind_eq_ok] at h
  obtain ⟨v, h1, h⟩ := h
  rw [Outcome.bind_eq_ok] at h
  obtain ⟨w, h2, h3⟩ := h
  obtain rfl := Outcome.ok.inj h3
  refine ⟨v, h1, ?_⟩
  have hu : allUps v.log = allUps t.log ∨ ∃ e, allUps v.log = allUps t.log ++ [e] := by
    simp only [step] at h1
    unfold run at h1
    split at h1
    · obtain rfl := Outcome.ok.inj h1
      exact Or.inl rfl
    · unfold dispatch at h1
      split at h1
      · have := ups_complete h1
        exact Or.inl this
      · have := ups_receive h1
        split at this
        · exact Or.inr ⟨_, this⟩
        · left; rw [this]; simp
  rcases hu with hu | ⟨e, hu⟩
  · left
    refine ⟨hu, ?_⟩
    unfold answers at h2
    rw [hu, List.drop_length] at h2
    exact (Outcome.ok.inj h2).symm
  · right
    refine ⟨e, hu, ?_⟩
    unfold answers at h2
    rw [hu, List.drop_left, List.flatMap_singleton] at h2
    rw [sendAll_exec]
    exact h2

/-- What has been passed up has been sent. -/
theorem ups_sent {E : Env} {s0 t : Sys} {ops : List Op} (h0 : Initial s0) (h : exec E s0 ops = .ok t)
    (hlen : ∀ c ∈ callsMade t.log, c.2.1.length ≤ 1492) {e : Time × DevId × Bytes × UInt16 × Mac48} (he : e ∈ allUps t.log) :
    ∃ c ∈ callsMade t.log, c.2.1 = e.2.2.1 ∧ c.2.2.2 = e.2.2.2.1 := by
  obtain ⟨τ, d, p, proto, sa⟩ := e
  have hm : (τ, Ev.rxCallback d p proto sa) ∈ t.log := by
    unfold allUps at he
    obtain ⟨⟨τ', ev⟩, h1, h2⟩ := List.mem_filterMap.mp he
    cases ev <;> simp only [reduceCtorEq, Option.some.injEq, Prod.mk.injEq] at h2
    obtain ⟨rfl, rfl, rfl, rfl, rfl⟩ := h2
    exact h1
  obtain ⟨o1, src, q, m, pr, o2, o3, s1, s2, ho, _, g2, _, g4, _, _, g7⟩ := C28_provenance h0 h hm
  have hlog : ∀ x ∈ s2.log, x ∈ t.log := by
    have hx : exec E s2 (.run :: o3) = .ok t := by
      rw [ho, show o1 ++ Op.send src q (.mac m) pr :: (o2 ++ .run :: o3) = (o1 ++ .send src q (.mac m) pr :: o2) ++ .run :: o3 by simp,
        exec_append, g2, Outcome.ok_bind] at h
      exact h
    intro x hx'
    refine (exec_induct (P := fun y => Good y ∧ x ∈ y.log) ?_ ⟨good_exec h0 g2, hx'⟩ hx).2
    rintro u u' op ⟨hu, hm⟩ hs
    exact ⟨good_step hu hs, by rw [log_prefix_step hu.inv hu.wired hs]; simp [hm]⟩
  have hc : (src, q, Addr.mac m, pr) ∈ callsMade t.log := List.mem_filterMap.mpr ⟨_, hlog _ g4, rfl⟩
  obtain ⟨r1, r2, _⟩ := g7 (hlen _ hc)
  exact ⟨_, hc, r1.symm, r2.symm⟩

/-! ## The state of many floods -/

/-- What holds of a network whose nodes flood. -/
structure Flooded (E : Env) (s0 : Sys) (ports : NodeId → List DevId) (bs : List (NodeId × Bytes × UInt16)) (t : Sys) : Prop where
  history : ∃ ops, exec E s0 ops = .ok t
  brought : ∀ c ∈ callsMade t.log, c.2.2.1 = .mac Mac48.broadcast ∧ ∃ b ∈ bs, (c.2.1, c.2.2.2) = b.2
  yes : ∀ b ∈ bs, ∀ n, (n = b.1 ∨ 0 < heardBy t n b.2.1 b.2.2) → ∀ d ∈ ports n,
    (callsMade t.log).count (d, b.2.1, .mac Mac48.broadcast, b.2.2) = 1
  no : ∀ b ∈ bs, ∀ d, (∀ n, d ∈ ports n → ¬ (n = b.1 ∨ 0 < heardBy t n b.2.1 b.2.2)) →
    (callsMade t.log).count (d, b.2.1, .mac Mac48.broadcast, b.2.2) = 0

theorem heardBy_congr {t u : Sys} (hu : allUps u.log = allUps t.log) (hn : ∀ d, (u.dev d).node = (t.dev d).node) (n : NodeId) (p : Bytes)
    (proto : UInt16) : heardBy u n p proto = heardBy t n p proto := by
  unfold heardBy
  simp only [hu, hn]

theorem heardBy_snoc {t u : Sys} {e : Time × DevId × Bytes × UInt16 × Mac48} (hu : allUps u.log = allUps t.log ++ [e])
    (hn : ∀ d, (u.dev d).node = (t.dev d).node) (n : NodeId) (p : Bytes) (proto : UInt16) :
    heardBy u n p proto = heardBy t n p proto +
      if (u.dev e.2.1).node = some n ∧ e.2.2.1 = p ∧ e.2.2.2.1 = proto then 1 else 0 := by
  unfold heardBy
  simp only [hu, hn, List.filter_append, List.length_append, List.filter_cons, List.filter_nil, decide_eq_true_eq]
  split <;> rfl

theorem onAll_count {ports : NodeId → List DevId} {n : NodeId} (hnd : (ports n).Nodup) (p : Bytes) (proto : UInt16) (d : DevId) :
    (onAll ports n p proto).count (d, p, .mac Mac48.broadcast, proto) = if d ∈ ports n then 1 else 0 := by
  unfold onAll
  rw [← hnd.count]
  exact List.count_map_of_injective (ports n) (fun d => (d, p, Addr.mac Mac48.broadcast, proto)) (fun a b h => by injection h) d

theorem onAll_count_other {ports : NodeId → List DevId} {n : NodeId} {p p' : Bytes} {proto proto' : UInt16} (h : (p, proto) ≠ (p', proto')) (d : DevId) :
    (onAll ports n p proto).count (d, p', .mac Mac48.broadcast, proto') = 0 := by
  rw [List.count_eq_zero]
  intro hm
  obtain ⟨x, _, hx⟩ := List.mem_map.mp hm
  simp only [Prod.mk.injEq] at hx
  exact h (by rw [hx.2.1, hx.2.2.2])

theorem flooded_heard {E : Env} {s0 : Sys} (h0 : Initial s0) {bs : List (NodeId × Bytes × UInt16)} {t : Sys}
    (hshort : ∀ b ∈ bs, b.2.1.length ≤ 1492) (h : ∃ ops, exec E s0 ops = .ok t)
    (hbr : ∀ c ∈ callsMade t.log, c.2.2.1 = .mac Mac48.broadcast ∧ ∃ b ∈ bs, (c.2.1, c.2.2.2) = b.2)
    {e : Time × DevId × Bytes × UInt16 × Mac48} (he : e ∈ allUps t.log) : ∃ b ∈ bs, (e.2.2.1, e.2.2.2.1) = b.2 := by
  obtain ⟨ops, hx⟩ := h
  obtain ⟨c, hc, h1, h2⟩ := ups_sent h0 hx (fun c hc => by
    obtain ⟨_, b, hb, e⟩ := hbr c hc
    have := hshort b hb
    rw [← e] at this
    exact this) he
  obtain ⟨_, b, hb, e⟩ := hbr c hc
  exact ⟨b, hb, by rw [← h1, ← h2, e]⟩

theorem run_history {E : Env} {s0 t u : Sys} {op : Op} (h : ∃ ops, exec E s0 ops = .ok t) (hs : step E t op = .ok u) :
    ∃ ops, exec E s0 ops = .ok u := by
  obtain ⟨ops, h⟩ := h
  refine ⟨ops ++ [op], ?_⟩
  rw [exec_append, h, Outcome.ok_bind]
  simp only [exec, hs, Outcome.ok_bind]

theorem sendAll_history {E : Env} {s0 t u : Sys} {l : List (DevId × Bytes × Addr × UInt16)} (h : ∃ ops, exec E s0 ops = .ok t)
    (hs : sendAll E l t = .ok u) : ∃ ops, exec E s0 ops = .ok u := by
  obtain ⟨ops, h⟩ := h
  rw [sendAll_exec] at hs
  exact ⟨ops ++ _, by rw [exec_append, h, Outcome.ok_bind, hs]⟩

theorem sendAll_keeps {E : Env} {t u : Sys} {l : List (DevId × Bytes × Addr × UInt16)} (hs : sendAll E l t = .ok u) :
    allUps u.log = allUps t.log ∧ ∀ d, (u.dev d).node = (t.dev d).node := by
  rw [sendAll_exec] at hs
  exact ⟨ups_sends _ (fun op hop => by
    obtain ⟨c, _, rfl⟩ := List.mem_map.mp hop
    exact ⟨_, _, _, _, rfl⟩) hs, node_exec hs⟩

/-- Where neither calls nor what is passed up changes. -/
theorem Flooded.same {E : Env} {s0 : Sys} {ports : NodeId → List DevId} {bs : List (NodeId × Bytes × UInt16)} {t u : Sys}
    (h : Flooded E s0 ports bs t) (hh : ∃ ops, exec E s0 ops = .ok u) (hc : callsMade u.log = callsMade t.log)
    (hu : allUps u.log = allUps t.log) (hn : ∀ d, (u.dev d).node = (t.dev d).node) : Flooded E s0 ports bs u := by
  refine ⟨hh, by rw [hc]; exact h.brought, ?_, ?_⟩
  · intro b hb n hor d hd
    rw [hc]
    rw [heardBy_congr hu hn] at hor
    exact h.yes b hb n hor d hd
  · intro b hb d hno
    rw [hc]
    refine h.no b hb d fun n hd hor => hno n hd ?_
    rwa [heardBy_congr hu hn]

theorem flooded_all {E : Env} {s0 : Sys} (h0 : Initial s0) {nodes : List NodeId} {ports : NodeId → List DevId} (hports : PortsOf s0 nodes ports)
    {own : NodeId → Bytes → UInt16 → Bool} {bs : List (NodeId × Bytes × UInt16)} {t : Sys} (h : FloodRuns E own ports s0 bs t)
    (hd : Distinct own bs) : Flooded E s0 ports bs t := by
  induction h with
  | start =>
    refine ⟨⟨[], rfl⟩, ?_, (fun b hb => by cases hb), (fun b hb => by cases hb)⟩
    rw [h0.log]
    intro c hc
    cases hc
  | @bring bs t u n p proto h hb ih =>
    have hd' : Distinct own bs := ⟨(List.pairwise_append.mp hd.apart).1, fun b hb => hd.short b (List.mem_append_left _ hb),
      fun b hb => hd.own b (List.mem_append_left _ hb)⟩
    have hne : ∀ b ∈ bs, b.2 ≠ (p, proto) := fun b hb => (List.pairwise_append.mp hd.apart).2.2 b hb _ (List.mem_singleton.mpr rfl)
    have ih := ih hd'
    have hcalls := calls_sends _ hb
    obtain ⟨hu, hn⟩ := sendAll_keeps hb
    have hnohear : ∀ m, heardBy t m p proto = 0 := by
      intro m
      unfold heardBy
      rw [List.length_eq_zero_iff, List.filter_eq_nil_iff]
      intro e he
      simp only [decide_eq_true_eq]
      rintro ⟨_, e1, e2⟩
      obtain ⟨b, hb, e3⟩ := flooded_heard h0 hd'.short ih.history ih.brought he
      exact hne b hb (by rw [← e3, e1, e2])
    have hnocall : ∀ d, (callsMade t.log).count (d, p, .mac Mac48.broadcast, proto) = 0 := by
      intro d
      rw [List.count_eq_zero]
      intro hm
      obtain ⟨_, b, hb, e⟩ := ih.brought _ hm
      exact hne b hb e.symm
    refine ⟨sendAll_history ih.history hb, ?_, ?_, ?_⟩
    · rw [hcalls]
      intro c hc
      rcases List.mem_append.mp hc with hc | hc
      · obtain ⟨h1, b, h2, h3⟩ := ih.brought c hc
        exact ⟨h1, b, List.mem_append_left _ h2, h3⟩
      · obtain ⟨d, _, rfl⟩ := List.mem_map.mp hc
        exact ⟨rfl, (n, p, proto), by simp, rfl⟩
    · intro b hb m hor d hdm
      rw [heardBy_congr hu hn] at hor
      rw [hcalls, List.count_append]
      rcases List.mem_append.mp hb with hb | hb
      · rw [ih.yes b hb m hor d hdm, onAll_count_other (fun e => hne b hb e.symm)]
      · obtain rfl := List.mem_singleton.mp hb
        simp only [hnohear, Nat.lt_irrefl, or_false] at hor
        subst hor
        rw [hnocall, onAll_count (hports.once _), if_pos hdm]
    · intro b hb d hno
      rw [hcalls, List.count_append]
      rcases List.mem_append.mp hb with hb | hb
      · rw [ih.no b hb d (fun m hdm hor => hno m hdm (by rwa [heardBy_congr hu hn])), onAll_count_other (fun e => hne b hb e.symm)]
      · obtain rfl := List.mem_singleton.mp hb
        rw [hnocall, onAll_count (hports.once _), if_neg (fun hdm => hno n hdm (Or.inl rfl))]
  | @aside bs t u op h ha hs ih =>
    have ih := ih hd
    obtain ⟨ops, hx⟩ := ih.history
    have hg := good_exec h0 hx
    refine ih.same (run_history ih.history hs) (calls_other hg ?_ hs) (ups_other hg ?_ hs) (node_exec (E := E) (ops := [op]) (by
      simp only [exec, hs, Outcome.ok_bind]))
    · rintro d p dest proto rfl; exact ha
    · rintro rfl; exact ha
  | @event bs t u h he ih =>
    have ih := ih hd
    obtain ⟨ops, hx⟩ := ih.history
    have hg := good_exec h0 hx
    obtain ⟨v, hv, hcase⟩ := event_parts he
    have hv' : step E t .run = .ok v := hv
    have hcv : callsMade v.log = callsMade t.log := calls_other hg (by simp) hv'
    have hnv : ∀ d, (v.dev d).node = (t.dev d).node := node_exec (E := E) (ops := [.run]) (by simp only [exec, hv', Outcome.ok_bind])
    have hhv := run_history ih.history hv'
    rcases hcase with ⟨hu, rfl⟩ | ⟨e, hu, hsend⟩
    · exact ih.same hhv hcv hu hnv
    obtain ⟨b0, hb0, he0⟩ := flooded_heard h0 hd.short hhv (by rw [hcv]; exact ih.brought) (e := e) (by rw [hu]; simp)
    obtain ⟨τ, x, q, pr, sa⟩ := e
    obtain ⟨n0, p, proto⟩ := b0
    simp only [Prod.mk.injEq] at he0
    obtain ⟨rfl, rfl⟩ := he0
    obtain ⟨ku, kn⟩ := sendAll_keeps hsend
    have hcalls := calls_sends _ hsend
    simp only at hu hsend hcalls
    -- the same packet is brought up once
    have huniq : ∀ b ∈ bs, b.2 = (q, pr) → b = (n0, q, pr) := by
      intro b hb e
      by_contra hne
      haveI : Std.Symm fun a b : NodeId × Bytes × UInt16 => a.2 ≠ b.2 := ⟨fun _ _ h e => h e.symm⟩
      exact hd.apart.forall hb hb0 hne e
    have hheard : ∀ m p proto, heardBy u m p proto = heardBy t m p proto + if (v.dev x).node = some m ∧ q = p ∧ pr = proto then 1 else 0 := by
      intro m p proto
      rw [heardBy_congr ku kn, heardBy_snoc hu hnv]
    have hnode0 : ∀ d, (t.dev d).node = (s0.dev d).node := node_exec hx
    cases hxn : (v.dev x).node with
    | none =>
      have hR : floodOnce own ports v x q pr sa = [] := by unfold floodOnce; rw [hxn]
      rw [hR] at hcalls hsend
      rw [List.append_nil, hcv] at hcalls
      have hsame : ∀ m p proto, heardBy u m p proto = heardBy t m p proto := by
        intro m p proto
        rw [hheard, hxn]; simp
      refine ⟨sendAll_history hhv hsend, by rw [hcalls]; exact ih.brought, ?_, ?_⟩
      · intro b hb m hor d hdm
        rw [hsame] at hor
        rw [hcalls]; exact ih.yes b hb m hor d hdm
      · intro b hb d hno
        rw [hcalls]
        exact ih.no b hb d fun m hdm hor => hno m hdm (by rwa [hsame])
    | some n =>
      have hmine : ∀ b ∈ bs, b.2 ≠ (q, pr) → ∀ m, heardBy u m b.2.1 b.2.2 = heardBy t m b.2.1 b.2.2 := by
        intro b hb hne m
        rw [hheard, if_neg, Nat.add_zero]
        rintro ⟨_, e1, e2⟩
        exact hne (by rw [e1, e2])
      have hother : ∀ m, m ≠ n → heardBy u m q pr = heardBy t m q pr := by
        intro m hm
        rw [hheard, hxn, if_neg, Nat.add_zero]
        rintro ⟨e1, _⟩
        injection e1 with e1
        exact hm e1.symm
      have hself : heardBy u n q pr = heardBy t n q pr + 1 := by rw [hheard, hxn, if_pos ⟨rfl, rfl, rfl⟩]
      have hown0 := hd.own _ hb0 n
      simp only at hown0
      have hvn : heardBy v n q pr = heardBy u n q pr := (heardBy_congr ku kn n q pr).symm
      have hnot : ∀ m d, d ∈ ports m → d ∈ ports n → m = n := by
        intro m d h1 h2
        have e1 := hports.own m d h1
        have e2 := hports.own n d h2
        rw [e1] at e2
        injection e2
      by_cases hact : n ≠ n0 ∧ heardBy t n q pr = 0
      · -- the node has it for the first time
        have hR : floodOnce own ports v x q pr sa = onAll ports n q pr := by
          unfold floodOnce
          rw [hxn]
          simp only
          rw [if_pos ⟨by rw [hown0]; simpa using hact.1, by rw [hvn, hself, hact.2]⟩]
        rw [hR, hcv] at hcalls
        refine ⟨sendAll_history hhv hsend, ?_, ?_, ?_⟩
        · rw [hcalls]
          intro c hc
          rcases List.mem_append.mp hc with hc | hc
          · exact ih.brought c hc
          · obtain ⟨d, _, rfl⟩ := List.mem_map.mp hc
            exact ⟨rfl, _, hb0, rfl⟩
        · intro b hb m hor d hdm
          rw [hcalls, List.count_append]
          by_cases hbe : b.2 = (q, pr)
          · obtain rfl := huniq b hb hbe
            simp only at hor ⊢
            rw [onAll_count (hports.once _)]
            by_cases hm : m = n
            · subst hm
              rw [if_pos hdm]
              have := ih.no _ hb0 d (fun m' hd' hor' => by
                obtain rfl := hnot m' d hd' hdm
                rcases hor' with h | h
                · exact hact.1 h
                · simp only [hact.2, Nat.lt_irrefl] at h)
              simp only at this
              rw [this]
            · rw [hother m hm] at hor
              rw [if_neg (fun h => hm (hnot m d hdm h))]
              exact ih.yes _ hb0 m hor d hdm
          · rw [hmine b hb hbe] at hor
            rw [onAll_count_other (fun e => hbe e.symm), ih.yes b hb m hor d hdm]
        · intro b hb d hno
          rw [hcalls, List.count_append]
          by_cases hbe : b.2 = (q, pr)
          · obtain rfl := huniq b hb hbe
            simp only at hno ⊢
            rw [onAll_count (hports.once _), if_neg (fun hdn => hno n hdn (Or.inr (by rw [hself]; exact Nat.succ_pos _)))]
            exact ih.no _ hb0 d fun m hdm hor => hno m hdm (by
              rcases hor with h | h
              · exact Or.inl h
              · right
                rw [hheard]
                exact Nat.lt_of_lt_of_le h (Nat.le_add_right _ _))
          · rw [onAll_count_other (fun e => hbe e.symm)]
            exact ih.no b hb d fun m hdm hor => hno m hdm (by rwa [hmine b hb hbe])
      · -- it had it before
        have hR : floodOnce own ports v x q pr sa = [] := by
          unfold floodOnce
          rw [hxn]
          simp only
          rw [if_neg]
          rintro ⟨h1, h2⟩
          rw [hown0] at h1
          refine hact ⟨by simpa using h1, ?_⟩
          rw [hvn, hself] at h2
          omega
        rw [hR, List.append_nil, hcv] at hcalls
        have hhad : ∀ b ∈ bs, ∀ m, (m = b.1 ∨ 0 < heardBy u m b.2.1 b.2.2) ↔ (m = b.1 ∨ 0 < heardBy t m b.2.1 b.2.2) := by
          intro b hb m
          by_cases hbe : b.2 = (q, pr)
          · obtain rfl := huniq b hb hbe
            simp only
            by_cases hm : m = n
            · subst hm
              constructor
              · intro _
                by_contra hno
                rw [not_or] at hno
                exact hact ⟨hno.1, by omega⟩
              · rintro (h | h)
                · exact Or.inl h
                · right; rw [hself]; omega
            · rw [hother m hm]
          · rw [hmine b hb hbe]
        refine ⟨sendAll_history hhv hsend, by rw [hcalls]; exact ih.brought, ?_, ?_⟩
        · intro b hb m hor d hdm
          rw [hcalls]; exact ih.yes b hb m ((hhad b hb m).mp hor) d hdm
        · intro b hb d hno
          rw [hcalls]
          exact ih.no b hb d fun m hdm hor => hno m hdm ((hhad b hb m).mpr hor)

end Verif
