import Verif.Lemmas.TraceFile
/-! Trace files: histories. -/

namespace Verif
open Spec

/-- How a history changes the open files: `l` is what it adds to the log, `L` the ascii records it gives rise to. -/
structure Written (h1 h2 : TSys) (l : List (Time × Ev)) (L : List (Time × DevId × Line)) : Prop where
  log : h2.sys.log = h1.sys.log ++ l
  ifIndex : h2.ifIndex = h1.ifIndex
  pcap : ∃ new, h2.pcap =
    h1.pcap.map (fun w => { w with recs := w.recs ++ l.filterMap (pcapRecord w.dev) }) ++ new
  ascii : ∃ new, h2.ascii =
    h1.ascii.map (fun w => { w with recs := w.recs ++ L.filterMap (asciiRecord w.dev) }) ++ new
  hooks : ∃ new, h2.hooks = h1.hooks ++ new ∧
    (new = [] → ∀ k, h2.streams k = h1.streams k ++ L.flatMap (streamRecords h1.hooks k))
  cap : ∀ d m, captured d (l ++ m) = l.filterMap (pcapRecord d) ++ captured d m
  plus : ∀ d, pluses (L.filterMap (asciiRecord d)) = projT (acceptedEv d) l
  minus : ∀ d, minuses (L.filterMap (asciiRecord d)) = projT (begunEv d) l
  loss : ∀ d, losses (L.filterMap (asciiRecord d)) = projT (lostEv d) l
  recv : ∀ d, receipts (L.filterMap (asciiRecord d)) = projT (handedUpEv d) l
  rep : ∀ d m, replay (h1.sys.dev d).queue (L.filterMap (asciiRecord d) ++ m) = replay (h2.sys.dev d).queue m

theorem map_recs_nil {α : Type} (ws : List (Writer α)) :
    ws.map (fun w => { w with recs := w.recs ++ [] }) = ws := by
  simp

theorem Written.refl (h : TSys) : Written h h [] [] where
  log := by simp
  ifIndex := rfl
  pcap := ⟨[], by simp⟩
  ascii := ⟨[], by simp⟩
  hooks := ⟨[], by simp, fun _ k => by simp⟩
  cap := fun d m => rfl
  plus := fun d => rfl
  minus := fun d => rfl
  loss := fun d => rfl
  recv := fun d => rfl
  rep := fun d m => rfl

theorem Written.trans {h1 h2 h3 : TSys} {l l' : List (Time × Ev)} {L L' : List (Time × DevId × Line)}
    (a : Written h1 h2 l L) (b : Written h2 h3 l' L') : Written h1 h3 (l ++ l') (L ++ L') where
  log := by rw [b.log, a.log, List.append_assoc]
  ifIndex := b.ifIndex.trans a.ifIndex
  pcap := by
    obtain ⟨m, hm⟩ := a.pcap
    obtain ⟨n, hn⟩ := b.pcap
    refine ⟨m.map (fun w => { w with recs := w.recs ++ l'.filterMap (pcapRecord w.dev) }) ++ n, ?_⟩
    rw [hn, hm]
    simp [Function.comp_def]
  ascii := by
    obtain ⟨m, hm⟩ := a.ascii
    obtain ⟨n, hn⟩ := b.ascii
    refine ⟨m.map (fun w => { w with recs := w.recs ++ L'.filterMap (asciiRecord w.dev) }) ++ n, ?_⟩
    rw [hn, hm]
    simp [Function.comp_def]
  hooks := by
    obtain ⟨m, hm, hm'⟩ := a.hooks
    obtain ⟨n, hn, hn'⟩ := b.hooks
    refine ⟨m ++ n, by rw [hn, hm, List.append_assoc], fun h k => ?_⟩
    obtain ⟨rfl, rfl⟩ := List.append_eq_nil_iff.mp h
    rw [hn' rfl, hm' rfl, hm, List.flatMap_append, List.append_nil, List.append_assoc]
  cap := fun d m => by
    rw [List.append_assoc, a.cap, b.cap, List.filterMap_append, List.append_assoc]
  plus := fun d => by rw [projT_append, ← a.plus, ← b.plus]; simp [pluses]
  minus := fun d => by rw [projT_append, ← a.minus, ← b.minus]; simp [minuses]
  loss := fun d => by rw [projT_append, ← a.loss, ← b.loss]; simp [losses]
  recv := fun d => by rw [projT_append, ← a.recv, ← b.recv]; simp [receipts]
  rep := fun d m => by rw [List.filterMap_append, List.append_assoc, a.rep, b.rep]

theorem grows_net {E : Env} {h h' : TSys} {op : Op} (hi : Inv h.sys) (hs : stepT E h op = .ok h') :
    step E h.sys op = .ok h'.sys ∧ Inv h'.sys ∧ ∃ l L, Written h h' l L := by
  unfold stepT at hs
  rw [Outcome.bind_eq_ok] at hs
  obtain ⟨s', hs', hs⟩ := hs
  injection hs with hs
  subst hs
  obtain ⟨l, hb, hlog, hq⟩ := qblock_step hi hs'
  have hdrop : s'.log.drop h.sys.log.length = l.map fun e => (s'.now, e) := by
    rw [hlog]; simp
  refine ⟨hs', inv_step hi hs', l.map fun e => (s'.now, e), stepLines E h.sys s' op, ?_⟩
  have hd : ∀ d, (stepLines E h.sys s' op).filterMap (asciiRecord d) = dline d s'.now (queueEvents E h.sys op) l := by
    intro d; unfold stepLines dline; rw [hdrop]
  exact {
    log := hlog
    ifIndex := rfl
    pcap := ⟨[], by simp only [hdrop, List.append_nil]⟩
    ascii := ⟨[], by simp only [List.append_nil]⟩
    hooks := ⟨[], by simp, fun _ k => rfl⟩
    cap := fun d m => captured_block d hb _ m
    plus := fun d => by rw [hd]; exact (dline_block d hb _).1
    minus := fun d => by rw [hd]; exact (dline_block d hb _).2.1
    loss := fun d => by rw [hd]; exact (dline_block d hb _).2.2.1
    recv := fun d => by rw [hd]; exact (dline_block d hb _).2.2.2
    rep := fun d m => by rw [hd]; exact dline_replay d _ l (hq d) m }

/-- Opening files and connecting streams. -/
theorem grows_open {h h' : TSys} (hs : h'.sys = h.sys) (hf : h'.ifIndex = h.ifIndex) (hst : h'.streams = h.streams)
    (hp : ∃ new, h'.pcap = h.pcap ++ new) (ha : ∃ new, h'.ascii = h.ascii ++ new) (hk : ∃ new, h'.hooks = h.hooks ++ new) :
    Written h h' [] [] where
  log := by simp [hs]
  ifIndex := hf
  pcap := by simpa using hp
  ascii := by simpa using ha
  hooks := by
    obtain ⟨new, hn⟩ := hk
    exact ⟨new, hn, fun _ k => by rw [hst]; simp⟩
  cap := fun d m => rfl
  plus := fun d => rfl
  minus := fun d => rfl
  loss := fun d => rfl
  recv := fun d => rfl
  rep := fun d m => by rw [hs]; rfl

/-- What a call that enables traces leaves alone. -/
structure Opens (h h' : TSys) : Prop where
  sys : h'.sys = h.sys
  ifIndex : h'.ifIndex = h.ifIndex
  streams : h'.streams = h.streams
  pcap : ∃ new, h'.pcap = h.pcap ++ new
  ascii : ∃ new, h'.ascii = h.ascii ++ new
  hooks : ∃ new, h'.hooks = h.hooks ++ new

theorem Opens.refl (h : TSys) : Opens h h := ⟨rfl, rfl, rfl, ⟨[], by simp⟩, ⟨[], by simp⟩, ⟨[], by simp⟩⟩

theorem Opens.trans {h1 h2 h3 : TSys} (a : Opens h1 h2) (b : Opens h2 h3) : Opens h1 h3 := by
  obtain ⟨p, hp⟩ := a.pcap
  obtain ⟨p', hp'⟩ := b.pcap
  obtain ⟨q, hq⟩ := a.ascii
  obtain ⟨q', hq'⟩ := b.ascii
  obtain ⟨r, hr⟩ := a.hooks
  obtain ⟨r', hr'⟩ := b.hooks
  exact ⟨b.sys.trans a.sys, b.ifIndex.trans a.ifIndex, b.streams.trans a.streams, ⟨p ++ p', by simp [hp', hp]⟩,
    ⟨q ++ q', by simp [hq', hq]⟩, ⟨r ++ r', by simp [hr', hr]⟩⟩

theorem opens_foldlM {α : Type} {f : TSys → α → Outcome TSys} (hf : ∀ h a h', f h a = .ok h' → Opens h h') :
    ∀ (l : List α) {h h' : TSys}, l.foldlM f h = .ok h' → Opens h h'
  | [], h, h', hr => by injection hr with hr; subst hr; exact .refl h
  | a :: l, h, h', hr => by
    rw [List.foldlM_cons, Outcome.bind_eq_ok] at hr
    obtain ⟨h1, h2, h3⟩ := hr
    exact (hf _ _ _ h2).trans (opens_foldlM hf l h3)

theorem opens_pcap {leo : Bool} {pre : FileName} {d : DevId} {pr ex : Bool} {h h' : TSys}
    (hr : enablePcap leo pre d pr ex h = .ok h') : Opens h h' := by
  unfold enablePcap at hr
  split at hr
  · injection hr with hr; subst hr; exact .refl h
  · rw [Outcome.bind_eq_ok] at hr
    obtain ⟨n, _, hr⟩ := hr
    injection hr with hr; subst hr
    exact ⟨rfl, rfl, rfl, ⟨_, rfl⟩, ⟨[], by simp⟩, ⟨[], by simp⟩⟩

theorem opens_ascii {leo : Bool} {st : Option Nat} {pre : FileName} {d : DevId} {ex : Bool} {h h' : TSys}
    (hr : enableAscii leo st pre d ex h = .ok h') : Opens h h' := by
  unfold enableAscii at hr
  split at hr
  · injection hr with hr; subst hr; exact .refl h
  · split at hr
    · rw [Outcome.bind_eq_ok] at hr
      obtain ⟨n, _, hr⟩ := hr
      split at hr
      · cases hr
      · injection hr with hr; subst hr
        exact ⟨rfl, rfl, rfl, ⟨[], by simp⟩, ⟨_, rfl⟩, ⟨[], by simp⟩⟩
    · split at hr
      · cases hr
      · injection hr with hr; subst hr
        exact ⟨rfl, rfl, rfl, ⟨[], by simp⟩, ⟨[], by simp⟩, ⟨_, rfl⟩⟩

theorem opens_tracer_pcap {t : Tracer} {pre : FileName} {d : DevId} {pr ex : Bool} {h h' : TSys}
    (hr : t.pcap pre d pr ex h = .ok h') : Opens h h' :=
  opens_foldlM (fun _ _ _ h => opens_pcap h) _ hr

theorem opens_tracer_ascii {t : Tracer} {st : Option Nat} {pre : FileName} {d : DevId} {ex : Bool} {h h' : TSys}
    (hr : t.ascii st pre d ex h = .ok h') : Opens h h' :=
  opens_foldlM (fun _ _ _ h => opens_ascii h) _ hr

theorem opens_op {E : Env} {h h' : TSys} {op : TOp} (hn : ∀ o, op ≠ .net o) (hs : op.step E h = .ok h') : Opens h h' := by
  cases op with
  | net o => exact absurd rfl (hn o)
  | pcap t pre d pr ex => exact opens_tracer_pcap hs
  | pcapAll t pre pr all => exact opens_foldlM (fun _ _ _ h => opens_tracer_pcap h) _ hs
  | ascii t st pre d ex => exact opens_tracer_ascii hs
  | asciiAll t st pre all => exact opens_foldlM (fun _ _ _ h => opens_tracer_ascii h) _ hs

theorem grows_exec {E : Env} : ∀ (ops : List TOp) {h h' : TSys}, Inv h.sys → execT E h ops = .ok h' →
    exec E h.sys (netOps ops) = .ok h'.sys ∧ Inv h'.sys ∧ ∃ l L, Written h h' l L
  | [], h, h', hi, hr => by injection hr with hr; subst hr; exact ⟨rfl, hi, [], [], .refl h⟩
  | op :: ops, h, h', hi, hr => by
    simp only [execT] at hr
    rw [Outcome.bind_eq_ok] at hr
    obtain ⟨h1, hs, hr⟩ := hr
    by_cases hn : ∃ o, op = .net o
    · obtain ⟨o, rfl⟩ := hn
      obtain ⟨h2, hi', l, L, hg⟩ := grows_net hi hs
      obtain ⟨h3, hi'', l', L', hg'⟩ := grows_exec ops hi' hr
      refine ⟨?_, hi'', _, _, hg.trans hg'⟩
      simp only [netOps, exec]
      rw [Outcome.bind_eq_ok]
      exact ⟨_, h2, h3⟩
    · have ho := opens_op (fun o e => hn ⟨o, e⟩) hs
      obtain ⟨h3, hi'', l', L', hg'⟩ := grows_exec ops (ho.sys ▸ hi) hr
      have hg := grows_open ho.sys ho.ifIndex ho.streams ho.pcap ho.ascii ho.hooks
      refine ⟨?_, hi'', _, _, hg.trans hg'⟩
      rw [ho.sys] at h3
      cases op with
      | net o => exact absurd ⟨o, rfl⟩ hn
      | _ => exact h3

theorem times_eq (t : Tracer) (v : Dev) : t.calls.countP (fun leo => !leo || v.leo) = times t v := by
  cases h : v.leo <;> cases t <;> simp [Tracer.calls, times, h]

theorem calls_pcap {pre : FileName} {d : DevId} {pr ex : Bool} {name : FileName} {v : Dev} :
    ∀ (cs : List Bool) (g : TSys), g.sys.dev d = v → deviceFile g pre d ex ".pcap".toList = .ok name →
    cs.foldlM (fun h leo => enablePcap leo pre d pr ex h) g =
      .ok { g with pcap := g.pcap ++ (List.replicate (cs.countP fun leo => !leo || v.leo) ⟨name, d, []⟩) }
  | [], g, _, _ => by simp
  | c :: cs, g, hv, hn => by
    rw [List.foldlM_cons]
    have key : enablePcap c pre d pr ex g = .ok (if !c || v.leo then { g with pcap := g.pcap ++ [⟨name, d, []⟩] } else g) := by
      unfold enablePcap
      rw [hv, hn]
      cases c <;> cases v.leo <;> rfl
    rw [key]
    show cs.foldlM _ _ = _
    rw [List.countP_cons]
    split
    · rw [calls_pcap cs _ (by exact hv) (by exact hn)]
      simp [List.replicate_succ]
    · rw [calls_pcap cs _ hv hn]
      simp

theorem calls_ascii {pre : FileName} {d : DevId} {ex : Bool} {name : FileName} {v : Dev} :
    ∀ (cs : List Bool) (g : TSys), g.sys.dev d = v → v.hasQueue = true → deviceFile g pre d ex ".tr".toList = .ok name →
    cs.foldlM (fun h leo => enableAscii leo none pre d ex h) g =
      .ok { g with ascii := g.ascii ++ (List.replicate (cs.countP fun leo => !leo || v.leo) ⟨name, d, []⟩) }
  | [], g, _, _, _ => by simp
  | c :: cs, g, hv, hq, hn => by
    rw [List.foldlM_cons]
    have key : enableAscii c none pre d ex g =
        .ok (if !c || v.leo then { g with ascii := g.ascii ++ [⟨name, d, []⟩] } else g) := by
      unfold enableAscii
      rw [hv]
      simp only [hn, hq]
      cases c <;> cases v.leo <;> rfl
    rw [key]
    show cs.foldlM _ _ = _
    rw [List.countP_cons]
    split
    · rw [calls_ascii cs _ (by exact hv) hq (by exact hn)]
      simp [List.replicate_succ]
    · rw [calls_ascii cs _ hv hq hn]
      simp

theorem calls_stream {k : Nat} {pre : FileName} {d : DevId} {ex : Bool} {n : NodeId} {v : Dev} :
    ∀ (cs : List Bool) (g : TSys), g.sys.dev d = v → v.node = some n →
    cs.foldlM (fun h leo => enableAscii leo (some k) pre d ex h) g =
      .ok { g with hooks := g.hooks ++ (List.replicate (cs.countP fun leo => !leo || v.leo) ⟨k, n, g.ifIndex d, d⟩) }
  | [], g, _, _ => by simp
  | c :: cs, g, hv, hn => by
    rw [List.foldlM_cons]
    have key : enableAscii c (some k) pre d ex g =
        .ok (if !c || v.leo then { g with hooks := g.hooks ++ [⟨k, n, g.ifIndex d, d⟩] } else g) := by
      unfold enableAscii
      rw [hv]
      simp only [hn]
      cases c <;> cases v.leo <;> rfl
    rw [key]
    show cs.foldlM _ _ = _
    rw [List.countP_cons]
    split
    · rw [calls_stream cs _ (by exact hv) hn]
      simp [List.replicate_succ]
    · rw [calls_stream cs _ hv hn]
      simp

/-- The content of a file all of whose writers write for one device from one time on. -/
theorem content_replicate {α : Type} [DecidableEq α] {ws : List (Writer α)} {name : FileName} {n : Nat} {w : Writer α}
    (h : ws.filter (fun v => decide (v.name = name)) = List.replicate (n + 1) w) : content ws name = some w.recs := by
  unfold content
  rw [h, List.replicate_succ]
  simp only
  rw [if_pos]
  intro v hv
  rw [(List.mem_replicate.mp hv).2]

theorem deviceFile_ok {h : TSys} {pre : FileName} {d : DevId} {ex : Bool} {ext : String} {n : NodeId}
    (hn : (h.sys.dev d).node = some n) (hp : ex = true ∨ pre ≠ []) :
    deviceFile h pre d ex ext.toList = .ok (fileOf h pre d ex ext) := by
  unfold deviceFile fileOf
  rw [hn]
  cases ex
  · have : pre ≠ [] := by simpa using hp
    simp [this]
  · rfl

theorem tracer_pcap {t : Tracer} {pre : FileName} {d : DevId} {pr ex : Bool} {h : TSys} {n : NodeId}
    (hn : (h.sys.dev d).node = some n) (hp : ex = true ∨ pre ≠ []) :
    t.pcap pre d pr ex h = .ok { h with pcap := h.pcap ++
      (List.replicate (times t (h.sys.dev d)) ⟨fileOf h pre d ex ".pcap", d, []⟩) } := by
  unfold Tracer.pcap
  rw [calls_pcap t.calls h rfl (deviceFile_ok hn hp), times_eq]

theorem tracer_ascii {t : Tracer} {pre : FileName} {d : DevId} {ex : Bool} {h : TSys} {n : NodeId}
    (hn : (h.sys.dev d).node = some n) (hq : (h.sys.dev d).hasQueue = true) (hp : ex = true ∨ pre ≠ []) :
    t.ascii none pre d ex h = .ok { h with ascii := h.ascii ++
      (List.replicate (times t (h.sys.dev d)) ⟨fileOf h pre d ex ".tr", d, []⟩) } := by
  unfold Tracer.ascii
  rw [calls_ascii t.calls h rfl hq (deviceFile_ok hn hp), times_eq]

theorem tracer_stream {t : Tracer} {k : Nat} {pre : FileName} {d : DevId} {ex : Bool} {h : TSys} {n : NodeId}
    (hn : (h.sys.dev d).node = some n) :
    t.ascii (some k) pre d ex h = .ok { h with hooks := h.hooks ++
      (List.replicate (times t (h.sys.dev d)) ⟨k, n, h.ifIndex d, d⟩) } := by
  unfold Tracer.ascii
  rw [calls_stream t.calls h rfl hn, times_eq]

/-- Writers opened together, for one device, under a name nobody else uses. -/
theorem content_grow {α : Type} [DecidableEq α] {ws ws' new : List (Writer α)} {name : FileName} {d : DevId} {n : Nat}
    {g : DevId → List (Time × α)} (hn : 0 < n) (h0 : ws.countP (fun w => decide (w.name = name)) = n)
    (hd : ∀ w ∈ ws, w.name = name → w.dev = d ∧ w.recs = [])
    (hw : ws' = ws.map (fun w => { w with recs := w.recs ++ g w.dev }) ++ new)
    (hc : ws'.countP (fun w => decide (w.name = name)) = n) : content ws' name = some (g d) := by
  have hnew : new.filter (fun w => decide (w.name = name)) = [] := by
    rw [hw, List.countP_append, List.countP_map] at hc
    have h0' : List.countP ((fun w : Writer α => decide (w.name = name)) ∘ fun w => { w with recs := w.recs ++ g w.dev }) ws = n := h0
    rw [h0'] at hc
    have : new.countP (fun w => decide (w.name = name)) = 0 := by omega
    rw [List.countP_eq_length_filter] at this
    exact List.length_eq_zero_iff.mp this
  have hall : ws'.filter (fun w => decide (w.name = name)) = List.replicate n ⟨name, d, g d⟩ := by
    rw [List.eq_replicate_iff]
    refine ⟨by rw [← List.countP_eq_length_filter]; exact hc, ?_⟩
    intro w hm
    rw [hw, List.filter_append, hnew, List.append_nil] at hm
    obtain ⟨hm, hname⟩ := List.mem_filter.mp hm
    obtain ⟨v, hv, rfl⟩ := List.mem_map.mp hm
    simp only [decide_eq_true_eq] at hname
    obtain ⟨h1, h2⟩ := hd v hv hname
    simp [hname, h1, h2]
  obtain ⟨m, rfl⟩ : ∃ m, n = m + 1 := ⟨n - 1, by omega⟩
  exact content_replicate hall

theorem stream_one {hooks : List Tap} {k : Nat} {n : NodeId} {i : Nat} {d : DevId}
    (hc : ∀ g ∈ hooks, g.stream = k → g.node = n → g.ifIndex = i → g.dev = d) (e : Time × DevId × Line) :
    ofContext n i (streamRecords hooks k e) =
      if e.2.1 = d then List.replicate (hooks.countP fun g => decide (g = ⟨k, n, i, d⟩)) (e.1, e.2.2) else [] := by
  induction hooks with
  | nil => simp [streamRecords, ofContext]
  | cons g hooks ih =>
    have ih := ih fun g hg => hc g (by simp [hg])
    have hg := hc g (by simp)
    obtain ⟨gk, gn, gi, gd⟩ := g
    simp only at hg
    unfold streamRecords ofContext at ih ⊢
    rw [List.filterMap_cons, List.countP_cons]
    by_cases h1 : gk = k ∧ gd = e.2.1
    · rw [if_pos h1]
      simp only [List.filterMap_cons]
      by_cases h2 : gn = n ∧ gi = i
      · rw [if_pos h2]
        have hd := hg h1.1 h2.1 h2.2
        obtain ⟨rfl, h1⟩ := h1
        obtain ⟨rfl, rfl⟩ := h2
        subst hd
        simp only [← h1, if_true] at ih
        simp only [← h1, if_true, decide_true, List.replicate_succ, ih]
      · rw [if_neg h2]
        have : ¬ (gk = k ∧ gn = n ∧ gi = i ∧ gd = d) := fun h => h2 ⟨h.2.1, h.2.2.1⟩
        simp only [ih, Tap.mk.injEq, this, decide_false, Bool.false_eq_true, if_false, Nat.add_zero]
    · rw [if_neg h1]
      simp only [ih]
      by_cases hd : e.2.1 = d
      · have : ¬ (gk = k ∧ gn = n ∧ gi = i ∧ gd = d) := fun h => h1 ⟨h.1, h.2.2.2.trans hd.symm⟩
        simp only [Tap.mk.injEq, this, decide_false, Bool.false_eq_true, if_false, Nat.add_zero]
      · simp only [hd, if_false]

theorem stream_all {hooks : List Tap} {k : Nat} {n : NodeId} {i : Nat} {d : DevId}
    (hc : ∀ g ∈ hooks, g.stream = k → g.node = n → g.ifIndex = i → g.dev = d) (L : List (Time × DevId × Line)) :
    ofContext n i (L.flatMap (streamRecords hooks k)) =
      (L.filterMap (asciiRecord d)).flatMap
        (List.replicate (hooks.countP fun g => decide (g = ⟨k, n, i, d⟩))) := by
  induction L with
  | nil => rfl
  | cons e L ih =>
    have h1 := stream_one hc e
    unfold ofContext at ih h1 ⊢
    rw [List.flatMap_cons, List.filterMap_append, ih, h1, List.filterMap_cons]
    unfold asciiRecord
    by_cases hd : e.2.1 = d
    · simp only [hd, if_true, List.flatMap_cons]
    · simp only [hd, if_false, List.nil_append]

theorem net_hooks {E : Env} : ∀ (ops : List Op) {h h' : TSys}, execT E h (ops.map .net) = .ok h' → h'.hooks = h.hooks ∧
    h'.pcap.map (fun w => (w.name, w.dev)) = h.pcap.map (fun w => (w.name, w.dev)) ∧
    h'.ascii.map (fun w => (w.name, w.dev)) = h.ascii.map (fun w => (w.name, w.dev))
  | [], h, h', hr => by injection hr with hr; subst hr; exact ⟨rfl, rfl, rfl⟩
  | op :: ops, h, h', hr => by
    simp only [List.map_cons, execT] at hr
    rw [Outcome.bind_eq_ok] at hr
    obtain ⟨h1, hs, hr⟩ := hr
    obtain ⟨a, b, c⟩ := net_hooks ops hr
    simp only [TOp.step, stepT] at hs
    rw [Outcome.bind_eq_ok] at hs
    obtain ⟨s', _, hs⟩ := hs
    injection hs with hs
    subst hs
    exact ⟨a, by rw [b]; simp [Function.comp_def], by rw [c]; simp [Function.comp_def]⟩

/-! ## Names -/

theorem digits_no_dash {l : List Char} (h : Digits l) : '-' ∉ l := by
  intro hm
  have := h _ hm
  revert this
  simp [IsDigit]

theorem split_dash {a a' b b' : List Char} (ha : '-' ∉ a) (ha' : '-' ∉ a') (h : a ++ '-' :: b = a' ++ '-' :: b') :
    a = a' ∧ b = b' := by
  induction a generalizing a' with
  | nil =>
    cases a' with
    | nil => simpa using h
    | cons c a' =>
      simp at h
      exact absurd (List.mem_cons.mpr (Or.inl h.1)) ha'
  | cons c a ih =>
    cases a' with
    | nil => simp at h; exact absurd (by simp [h.1]) ha
    | cons c' a' =>
      simp only [List.cons_append, List.cons.injEq] at h
      obtain ⟨rfl, h⟩ := h
      obtain ⟨rfl, rfl⟩ := ih (fun hm => ha (by simp [hm])) (fun hm => ha' (by simp [hm])) h
      exact ⟨rfl, rfl⟩

theorem showNat_inj {n m : Nat} (h : showNat n = showNat m) : n = m := by
  have h1 := (showNat_spec n).2.2
  rw [h, (showNat_spec m).2.2] at h1
  exact h1.symm

theorem fileName_inj {pre ext : FileName} {n m i j : Nat} (h : fileName pre n i ext = fileName pre m j ext) :
    n = m ∧ i = j := by
  unfold fileName at h
  have h := List.append_cancel_right h
  simp only [List.append_assoc] at h
  have h := List.append_cancel_left h
  simp only [List.cons_append, List.nil_append, List.cons.injEq, true_and] at h
  obtain ⟨h1, h2⟩ := split_dash (digits_no_dash (showNat_spec n).1) (digits_no_dash (showNat_spec m).1) h
  exact ⟨showNat_inj h1, showNat_inj h2⟩

/-! ## All devices -/

theorem all_pcap {t : Tracer} {pre : FileName} {pr : Bool} (hp : pre ≠ []) {h0 : TSys} : ∀ (all : List DevId) (h : TSys),
    h.sys = h0.sys → h.ifIndex = h0.ifIndex → (∀ d ∈ all, (h0.sys.dev d).node ≠ none) →
    t.pcapAll pre pr all h = .ok { h with pcap := h.pcap ++ (all.flatMap fun d =>
      List.replicate (times t (h0.sys.dev d)) ⟨fileOf h0 pre d false ".pcap", d, []⟩) }
  | [], h, _, _, _ => by simp [Tracer.pcapAll]
  | d :: all, h, hs, hi, hn => by
    obtain ⟨n, hn'⟩ := Option.ne_none_iff_exists'.mp (hn d (by simp))
    unfold Tracer.pcapAll
    rw [List.foldlM_cons, tracer_pcap (by rw [hs]; exact hn') (Or.inr hp)]
    show Tracer.pcapAll t pre pr all _ = _
    rw [all_pcap hp all _ (by exact hs) (by exact hi) fun d hd => hn d (by simp [hd])]
    simp only [List.flatMap_cons, List.append_assoc, fileOf, hs, hi]

theorem all_ascii {t : Tracer} {pre : FileName} (hp : pre ≠ []) {h0 : TSys} : ∀ (all : List DevId) (h : TSys),
    h.sys = h0.sys → h.ifIndex = h0.ifIndex → (∀ d ∈ all, (h0.sys.dev d).node ≠ none ∧ (h0.sys.dev d).hasQueue = true) →
    t.asciiAll none pre all h = .ok { h with ascii := h.ascii ++ (all.flatMap fun d =>
      List.replicate (times t (h0.sys.dev d)) ⟨fileOf h0 pre d false ".tr", d, []⟩) }
  | [], h, _, _, _ => by simp [Tracer.asciiAll]
  | d :: all, h, hs, hi, hn => by
    obtain ⟨n, hn'⟩ := Option.ne_none_iff_exists'.mp (hn d (by simp)).1
    unfold Tracer.asciiAll
    rw [List.foldlM_cons, tracer_ascii (by rw [hs]; exact hn') (by rw [hs]; exact (hn d (by simp)).2) (Or.inr hp)]
    show Tracer.asciiAll t none pre all _ = _
    rw [all_ascii hp all _ (by exact hs) (by exact hi) fun d hd => hn d (by simp [hd])]
    simp only [List.flatMap_cons, List.append_assoc, fileOf, hs, hi]

theorem all_stream {t : Tracer} {k : Nat} {pre : FileName} {h0 : TSys} : ∀ (all : List DevId) (h : TSys),
    h.sys = h0.sys → h.ifIndex = h0.ifIndex → (∀ d ∈ all, (h0.sys.dev d).node ≠ none) →
    t.asciiAll (some k) pre all h = .ok { h with hooks := h.hooks ++ (all.flatMap fun d =>
      List.replicate (times t (h0.sys.dev d)) ⟨k, (h0.sys.dev d).node.getD 0, h0.ifIndex d, d⟩) }
  | [], h, _, _, _ => by simp [Tracer.asciiAll]
  | d :: all, h, hs, hi, hn => by
    obtain ⟨n, hn'⟩ := Option.ne_none_iff_exists'.mp (hn d (by simp))
    unfold Tracer.asciiAll
    rw [List.foldlM_cons, tracer_stream (n := n) (by rw [hs]; exact hn')]
    show Tracer.asciiAll t (some k) pre all _ = _
    rw [all_stream all _ (by exact hs) (by exact hi) fun d hd => hn d (by simp [hd])]
    simp only [List.flatMap_cons, List.append_assoc, hs, hi, hn', Option.getD_some]

/-- Among writers opened for different names, those of one name belong to one device. -/
theorem flatMap_count {α β : Type} [DecidableEq α] [DecidableEq β] {all : List α} (hnd : all.Nodup) (n : α → Nat) (g : α → β)
    (hg : ∀ a ∈ all, ∀ b ∈ all, g a = g b → a = b) {d : α} (hd : d ∈ all) :
    (all.flatMap fun a => List.replicate (n a) (g a)).countP (fun w => decide (w = g d)) = n d := by
  induction all with
  | nil => cases hd
  | cons a all ih =>
    rw [List.flatMap_cons, List.countP_append, List.countP_replicate]
    obtain ⟨ha, hnd⟩ := List.nodup_cons.mp hnd
    by_cases had : a = d
    · subst had
      have : (all.flatMap fun b => List.replicate (n b) (g b)).countP (fun w => decide (w = g a)) = 0 := by
        rw [List.countP_eq_zero]
        intro w hw
        obtain ⟨b, hb, hw⟩ := List.mem_flatMap.mp hw
        rw [(List.mem_replicate.mp hw).2]
        intro he
        have := hg b (by simp [hb]) a (by simp) (by simpa using he)
        exact ha (this ▸ hb)
      rw [this]
      simp
    · have hd' : d ∈ all := by
        rcases List.mem_cons.mp hd with h | h
        · exact absurd h.symm had
        · exact h
      rw [ih hnd (fun a ha b hb => hg a (by simp [ha]) b (by simp [hb])) hd']
      have : g a ≠ g d := fun h => had (hg a (by simp) d hd h)
      simp [this]

end Verif
