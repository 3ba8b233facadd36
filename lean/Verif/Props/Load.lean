import Verif.Lemmas.Load
import Verif.Props.Relay
/-!
# Delivery of packets while other packets are on their way (C93)
-/

namespace Verif
open Spec

/-- **C93**, ground/space channel: every packet that a device accepts arrives at every device it is for that stays in reach, at most
the time the queue can hold it up and the propagation delay later, whatever else is sent, received, attached or set meanwhile. -/
theorem C93_leo {E : Env} (hE : ErrorFree E) {s0 s : Sys} {ops : List Op} (h0 : Initial s0) (hpr : ProperRun E s0 ops)
    (h : exec E s0 ops = .ok s) {g : Stage} {t : Time} {f : Bytes} (hok : StageOk E s0 ops s t t g)
    (hleo : During E s0 ops t (t + g.queueing s0) (OverLeo g))
    (hm : (t, Ev.sendRet g.src g.packet (.mac g.to) g.proto true f) ∈ s.log) (hlate : t + g.bound s0 < s.now) :
    ∃ t', (t', Ev.rxCallback g.dst g.packet g.proto g.own) ∈ s.log ∧ t ≤ t' ∧ t' ≤ t + g.bound s0 := by
  obtain ⟨o1, o2, u, u', t', ho, hu, hr, hu', hm', _, h1, h2⟩ := stage_arrives hE h0 hpr h hok (Or.inl hleo) hm (Nat.le_refl _) (Nat.le_refl _) hlate
  exact ⟨t', newLog_sub (good_exec h0 hu) (op := .run) hr hu' hm', h1, h2⟩

/-- **C93**, any channel, the part that holds: the same for a device that sends to one address only.  Missing: inter-satellite devices
that send to several addresses, for which it is false. -/
theorem C93_one_destination_partial {E : Env} (hE : ErrorFree E) {s0 s : Sys} {ops : List Op} (h0 : Initial s0) (hpr : ProperRun E s0 ops)
    (h : exec E s0 ops = .ok s) {g : Stage} {t : Time} {f : Bytes} (hok : StageOk E s0 ops s t t g) (hone : OnlyTo g.src g.to ops)
    (hm : (t, Ev.sendRet g.src g.packet (.mac g.to) g.proto true f) ∈ s.log) (hlate : t + g.bound s0 < s.now) :
    ∃ t', (t', Ev.rxCallback g.dst g.packet g.proto g.own) ∈ s.log ∧ t ≤ t' ∧ t' ≤ t + g.bound s0 := by
  obtain ⟨o1, o2, u, u', t', ho, hu, hr, hu', hm', _, h1, h2⟩ := stage_arrives hE h0 hpr h hok (Or.inr hone) hm (Nat.le_refl _) (Nat.le_refl _) hlate
  exact ⟨t', newLog_sub (good_exec h0 hu) (op := .run) hr hu' hm', h1, h2⟩

theorem route_from {E : Env} (hE : ErrorFree E) {s0 s : Sys} {ops : List Op} (h0 : Initial s0) (hpr : ProperRun E s0 ops)
    (h : exec E s0 ops = .ok s) {R : Forwarder} (hR : CarriesOut E R s0 ops) (t0 : Time) (gs : List Stage) :
    ∀ (g : Stage) (t T : Time) (f : Bytes), StagesOk E s0 ops s t0 T (g :: gs) → (∀ k ∈ g :: gs, Undivided E s0 ops k) →
    Leads R (g :: gs) → (t, Ev.sendRet g.src g.packet (.mac g.to) g.proto true f) ∈ s.log → t0 ≤ t → t ≤ T →
    t + ((g :: gs).map (Stage.bound s0)).sum < s.now →
    (∃ t' k, (g :: gs).getLast? = some k ∧ (t', Ev.rxCallback k.dst k.packet k.proto k.own) ∈ s.log ∧ t ≤ t' ∧
        t' ≤ t + ((g :: gs).map (Stage.bound s0)).sum) ∨
      ∃ k ∈ gs, ∃ t' f', (t', Ev.sendRet k.src k.packet (.mac k.to) k.proto false f') ∈ s.log ∧ t ≤ t' ∧
        t' ≤ t + ((g :: gs).map (Stage.bound s0)).sum := by
  induction gs with
  | nil =>
    intro g t T f hok hdiv _ hm ht hT hlate
    simp only [List.map_cons, List.map_nil, List.sum_cons, List.sum_nil, Nat.add_zero] at hlate ⊢
    obtain ⟨o1, o2, u, u', t', ho, hu, hr, hu', hm', _, h1, h2⟩ := stage_arrives hE h0 hpr h hok.1
      ((hdiv g List.mem_cons_self).imp (fun hh a b v hab hv _ _ => hh a b v hab hv) id) hm ht hT hlate
    exact Or.inl ⟨t', g, rfl, newLog_sub (good_exec h0 hu) (op := .run) hr hu' hm', h1, h2⟩
  | cons k gs ih =>
    intro g t T f hok hdiv hl hm ht hT hlate
    have hsum : ((g :: k :: gs).map (Stage.bound s0)).sum = g.bound s0 + ((k :: gs).map (Stage.bound s0)).sum := by simp
    rw [hsum] at hlate ⊢
    obtain ⟨o1, o2, u, u', t', ho, hu, hr, hu', hm', htn, h1, h2⟩ := stage_arrives hE h0 hpr h hok.1
      ((hdiv g List.mem_cons_self).imp (fun hh a b v hab hv _ _ => hh a b v hab hv) id) hm ht hT (by omega)
    obtain ⟨o3, rfl⟩ := hR o1 o2 u u' ho hu hr _ _ _ _ _ hm' _ _ _ _ hl.1
    simp only [exec, step] at hu'
    rw [Outcome.bind_eq_ok] at hu'
    obtain ⟨v, hv, hvs⟩ := hu'
    obtain ⟨b, f', hb⟩ := send_returns hv
    have h1' : exec E s0 (o1 ++ [.run]) = .ok u' := exec_snoc hu hr
    have hb' := log_mono h0 (exec_snoc h1' (op := .send k.src k.packet (.mac k.to) k.proto) hv) hvs hb
    rw [← htn] at hb'
    cases b with
    | false => exact Or.inr ⟨k, List.mem_cons_self, t', f', hb', h1, by omega⟩
    | true =>
      rcases ih k t' (T + g.bound s0) f' hok.2 (fun j hj => hdiv j (List.mem_cons_of_mem _ hj)) hl.2 hb' (by omega) (by omega) (by omega) with
        ⟨t2, j, hj, hj2, hj3, hj4⟩ | ⟨j, hj, t2, f2, hj2, hj3, hj4⟩
      · exact Or.inl ⟨t2, j, by simpa using hj, hj2, by omega, by omega⟩
      · exact Or.inr ⟨j, List.mem_cons_of_mem _ hj, t2, f2, hj2, by omega, by omega⟩

/-- **C93** along a route, whatever else is going on: in a history in which the forwarding decisions are carried out, a packet accepted by
the first sender of a route arrives at its end within the sum of the bounds of the stages, unless some sender on the way refused
it in that time. -/
theorem C93_route {E : Env} (hE : ErrorFree E) {s0 s : Sys} {ops : List Op} (h0 : Initial s0) (hpr : ProperRun E s0 ops)
    (h : exec E s0 ops = .ok s) {R : Forwarder} (hR : CarriesOut E R s0 ops) {g : Stage} {gs : List Stage} {t : Time} {f : Bytes}
    (hok : StagesOk E s0 ops s t t (g :: gs)) (hdiv : ∀ k ∈ g :: gs, Undivided E s0 ops k) (hl : Leads R (g :: gs))
    (hm : (t, Ev.sendRet g.src g.packet (.mac g.to) g.proto true f) ∈ s.log) (hlate : t + ((g :: gs).map (Stage.bound s0)).sum < s.now) :
    (∃ t' k, (g :: gs).getLast? = some k ∧ (t', Ev.rxCallback k.dst k.packet k.proto k.own) ∈ s.log ∧ t ≤ t' ∧
        t' ≤ t + ((g :: gs).map (Stage.bound s0)).sum) ∨
      ∃ k ∈ gs, ∃ t' f', (t', Ev.sendRet k.src k.packet (.mac k.to) k.proto false f') ∈ s.log ∧ t ≤ t' ∧
        t' ≤ t + ((g :: gs).map (Stage.bound s0)).sum :=
  route_from hE h0 hpr h hR t gs g t t f hok hdiv hl hm (Nat.le_refl _) (Nat.le_refl _) hlate

theorem properRun_nil (E : Env) (s : Sys) : ProperRun E s [] := by
  intro o1 op o2 s1 ho
  simp at ho

theorem properRun_one {E : Env} {s : Sys} {op : Op} (h : Proper s op) : ProperRun E s [op] := by
  intro o1 op' o2 s1 ho hs
  cases o1 with
  | nil =>
    simp only [List.nil_append, List.cons.injEq] at ho
    injection hs with hs
    subst hs
    exact ho.1 ▸ h
  | cons a o1 => simp at ho

theorem carriesOut_nil (E : Env) (R : Forwarder) (s : Sys) : CarriesOut E R s [] := by
  intro o1 o2 u u' ho
  simp at ho

/-- Sends and other operations that run no event carry out what there is to carry out. -/
theorem carriesOut_cons {E : Env} {R : Forwarder} {s u : Sys} {op : Op} {ops : List Op} (hop : op ≠ .run) (hs : step E s op = .ok u)
    (h : CarriesOut E R u ops) : CarriesOut E R s (op :: ops) := by
  intro o1 o2 v v' ho hv
  cases o1 with
  | nil => simp only [List.nil_append, List.cons.injEq] at ho; exact absurd ho.1 hop
  | cons a o1 =>
    simp only [List.cons_append, List.cons.injEq] at ho
    obtain ⟨rfl, ho⟩ := ho
    simp only [exec, hs, Outcome.ok_bind] at hv
    exact h o1 o2 v v' ho hv

theorem good_of_fit {E : Env} {s s' : Sys} {ops : List Op} (hg : Good s) (h : exec E s ops = .ok s') : Good s' :=
  exec_induct (P := Good) (fun _ _ _ hP hs => good_step hP hs) hg h

theorem program_from {E : Env} {R : Forwarder} (hR : ForwardsProperly R) (ops : List Op) : ∀ {s : Sys}, Fit E s → Good s → ProperProgram E R s ops →
    ∃ s' ops', forwardExec E R s ops = .ok s' ∧ exec E s ops' = .ok s' ∧ ProperRun E s ops' ∧ CarriesOut E R s ops' ∧
      ops.Sublist ops' ∧ ops'.filter notSend = ops.filter notSend := by
  induction ops with
  | nil => intro s _ _ _; exact ⟨s, [], rfl, rfl, properRun_nil E s, carriesOut_nil E R s, List.Sublist.refl _, rfl⟩
  | cons op ops ih =>
    intro s hf hg hp
    have hprop := hp [] op ops s rfl rfl
    by_cases hop : op = .run
    · subst hop
      obtain ⟨u, hu⟩ := fit_progress hf hprop
      have hfu := fit_step hf hprop hu
      have hgu := good_step hg hu
      simp only [step] at hu
      -- the forwarding decision cannot fail
      have hok : ∃ v, runK E (forwardSink E R) s = .ok v := by
        rw [runK_cases]
        split
        · rw [hu, Outcome.ok_bind]
          unfold react
          split
          · rename_i t x p proto sa _
            cases hRx : R x p proto sa with
            | none => exact ⟨u, rfl⟩
            | some r =>
              obtain ⟨d', p', dest', proto'⟩ := r
              exact fit_progress (op := .send d' p' dest' proto') hfu ⟨True.intro, hR _ _ _ _ _ _ _ _ hRx⟩
          · exact ⟨u, rfl⟩
        · exact ⟨u, hu⟩
      obtain ⟨v, hv⟩ := hok
      obtain ⟨u2, sends, hu2, hvs, hsends, hcarry⟩ := runK_carries hg hv
      rw [hu] at hu2; injection hu2 with hu2; subst hu2
      have hps : ProperRun E u sends := by
        rcases hsends with rfl | ⟨_, _, _, _, _, d, p', dest, proto', _, hRx, rfl⟩
        · exact properRun_nil E u
        · exact properRun_one ⟨True.intro, hR _ _ _ _ _ _ _ _ hRx⟩
      obtain ⟨v2, hv2, hfv⟩ := fit_exec hfu hps
      rw [hvs] at hv2; injection hv2 with hv2; subst hv2
      have hgv := good_of_fit hgu hvs
      obtain ⟨s', ops', h1, h2, h3, h4, h5, h6⟩ := ih hfv hgv (by
        intro o1 op' o2 w ho hw
        exact hp (.run :: o1) op' o2 w (by rw [ho]; rfl) (by simp only [forwardExec, hv, Outcome.ok_bind]; exact hw))
      refine ⟨s', .run :: (sends ++ ops'), by simp only [forwardExec, hv, Outcome.ok_bind]; exact h1, ?_, ?_, ?_, ?_, ?_⟩
      · simp only [exec, step, hu, Outcome.ok_bind]
        rw [exec_append, hvs, Outcome.ok_bind]; exact h2
      · have hone : exec E s [.run] = .ok u := by simp [exec, step, hu]
        exact properRun_append (properRun_one hprop) hone (properRun_append hps hvs h3)
      · intro o1 o2 w w' ho hw hw'
        cases o1 with
        | nil =>
          simp only [List.nil_append, List.cons.injEq, true_and] at ho
          injection hw with hw; subst hw
          rw [hu] at hw'; injection hw' with hw'; subst hw'
          intro t x p proto sa hm d p' dest proto' hRx
          have := hcarry t x p proto sa hm d p' dest proto' hRx
          subst this
          exact ⟨ops', ho.symm⟩
        | cons a o1 =>
          simp only [List.cons_append, List.cons.injEq] at ho
          obtain ⟨rfl, ho⟩ := ho
          simp only [exec, step, hu, Outcome.ok_bind] at hw
          have hco : CarriesOut E R u (sends ++ ops') := by
            rcases hsends with rfl | ⟨_, _, _, _, _, d, p', dest, proto', _, hRx, rfl⟩
            · injection hvs with hvs; subst hvs; exact h4
            · simp only [exec] at hvs
              rw [Outcome.bind_eq_ok] at hvs
              obtain ⟨x, hx, hx2⟩ := hvs
              injection hx2 with hx2; subst hx2
              exact carriesOut_cons (by simp) hx h4
          exact hco o1 o2 w w' ho hw hw'
      · exact (h5.trans (List.sublist_append_right _ _)).cons_cons _
      · rw [List.filter_cons_of_pos rfl, List.filter_cons_of_pos rfl, List.filter_append, h6]
        have : sends.filter notSend = [] := by
          rcases hsends with rfl | ⟨_, _, _, _, _, d, p', dest, proto', _, hRx, rfl⟩ <;> rfl
        rw [this]; rfl
    · obtain ⟨u, hu⟩ := fit_progress hf hprop
      have hfu := fit_step hf hprop hu
      have hgu := good_step hg hu
      have hstep : ∀ o, forwardExec E R s (op :: o) = (step E s op >>= fun t => forwardExec E R t o) := by
        intro o
        cases op <;> first | rfl | exact absurd rfl hop
      obtain ⟨s', ops', h1, h2, h3, h4, h5, h6⟩ := ih hfu hgu (by
        intro o1 op' o2 w ho hw
        exact hp (op :: o1) op' o2 w (by rw [ho]; rfl) (by rw [hstep, hu, Outcome.ok_bind]; exact hw))
      refine ⟨s', op :: ops', by rw [hstep, hu, Outcome.ok_bind]; exact h1, by simp only [exec, hu, Outcome.ok_bind]; exact h2, ?_,
        carriesOut_cons hop hu h4, h5.cons_cons _, ?_⟩
      · exact properRun_append (properRun_one hprop) (by simp [exec, hu] : exec E s [op] = .ok u) h3
      · rw [List.filter_cons, List.filter_cons, h6]

/-- **C93**: every program whose receive callbacks forward packets, if it keeps the rules, runs without failure and is such a history: the
operations of the program, with the forwarding calls of `Send` where the callbacks are called. -/
theorem C93_programs {E : Env} {s0 : Sys} (h0 : Initial s0) {R : Forwarder} (hR : ForwardsProperly R) {ops : List Op}
    (hp : ProperProgram E R s0 ops) :
    ∃ s ops', forwardExec E R s0 ops = .ok s ∧ exec E s0 ops' = .ok s ∧ ProperRun E s0 ops' ∧ CarriesOut E R s0 ops' ∧
      ops.Sublist ops' ∧ ops'.filter notSend = ops.filter notSend :=
  program_from hR ops (fit_initial h0) (good_initial h0) hp

/-! ## Examples -/

namespace Demo

/-- Test of all states of a history at times from `t` to `T`. -/
def duringB (E : Env) (t T : Time) (test : Sys → Bool) : List Op → Sys → Bool
  | [], s => decide (s.now < t) || decide (T < s.now) || test s
  | op :: ops, s => (decide (s.now < t) || decide (T < s.now) || test s) &&
    match step E s op with
    | .ok u => duringB E t T test ops u
    | .fail _ => true

theorem during_of {E : Env} {t T : Time} {test : Sys → Bool} {P : Sys → Prop} (hP : ∀ u, test u = true → P u) (ops : List Op) :
    ∀ {s : Sys}, duringB E t T test ops s = true → During E s ops t T P := by
  have now : ∀ {s : Sys}, (decide (s.now < t) || decide (T < s.now) || test s) = true → t ≤ s.now → s.now ≤ T → P s := by
    intro s h h1 h2
    simp only [Bool.or_eq_true, decide_eq_true_eq] at h
    rcases h with (h | h) | h
    · exact absurd h1 (Nat.not_le.mpr h)
    · exact absurd h2 (Nat.not_le.mpr h)
    · exact hP _ h
  induction ops with
  | nil =>
    intro s h o1 o2 u ho hu
    obtain ⟨rfl, rfl⟩ := List.append_eq_nil_iff.mp ho.symm
    injection hu with hu; subst hu
    exact now h
  | cons op ops ih =>
    intro s h o1 o2 u ho hu
    simp only [duringB, Bool.and_eq_true] at h
    cases o1 with
    | nil => injection hu with hu; subst hu; exact now h.1
    | cons a o1 =>
      simp only [List.cons_append, List.cons.injEq] at ho
      obtain ⟨rfl, ho⟩ := ho
      simp only [exec] at hu
      rw [Outcome.bind_eq_ok] at hu
      obtain ⟨v, hv, hu⟩ := hu
      have h2 := h.2
      rw [hv] at h2
      exact ih h2 o1 o2 u ho hu

/-- Test of `InReach`. -/
def inReachB (E : Env) (g : Stage) (u : Sys) : Bool :=
  match (u.dev g.src).chan with
  | none => false
  | some c =>
    decide ((u.chan c).kind = .leo → g.src ∈ members c u.log ∧ g.dst ∈ members c u.log ∧ (u.dev g.dst).side ≠ (u.dev g.src).side) &&
    decide ((u.chan c).kind = .isl → g.dst ∈ slots c u.log ∧ (u.dev g.dst).addr = g.to) &&
    match reachDev E u c g.src (E.txTime (u.dev g.src).rate (max 64 (g.packet.length + 26))) g.dst with
    | some (del, pw) => decide (del ≤ g.delay) && decide (g.power ≤ pw)
    | none => false

theorem inReach_of {E : Env} {g : Stage} (u : Sys) (h : inReachB E g u = true) : InReach E g u := by
  unfold inReachB at h
  split at h
  · cases h
  · rename_i c hc
    simp only [Bool.and_eq_true, decide_eq_true_eq] at h
    obtain ⟨⟨h1, h2⟩, h3⟩ := h
    split at h3
    · rename_i del pw hr
      simp only [Bool.and_eq_true, decide_eq_true_eq] at h3
      exact ⟨c, hc, h1, h2, del, pw, hr, h3⟩
    · cases h3

instance (a b : Mac48) : Decidable (ForMe a b) := by unfold ForMe; infer_instance

/-- Test of `Listening`. -/
def listeningB (g : Stage) (u : Sys) : Bool :=
  decide (g.src ≠ g.dst) && decide ((u.dev g.dst).rxThreshold ≤ effectivePower (u.dev g.dst) g.power) && decide (ForMe g.to (u.dev g.dst).addr)

theorem listening_of {g : Stage} (u : Sys) (h : listeningB g u = true) : Listening g u := by
  unfold listeningB at h
  simp only [Bool.and_eq_true, decide_eq_true_eq] at h
  exact ⟨h.1.1, h.1.2, h.2⟩

/-- Test of `OverLeo`. -/
def overLeoB (g : Stage) (u : Sys) : Bool :=
  match (u.dev g.src).chan with
  | none => true
  | some c => decide ((u.chan c).kind = .leo)

theorem overLeo_of {g : Stage} (u : Sys) (h : overLeoB g u = true) : OverLeo g u := by
  intro c hc
  unfold overLeoB at h
  rw [hc] at h
  simpa using h

/-- The operations of the examples. -/
def Plain : Op → Prop
  | .attach d _ => d < 200
  | .send _ p dest _ => dest ≠ .other ∧ p.length ≤ 65527
  | .run => True
  | .wait _ => True
  | _ => False

theorem plain_properRun (E : Env) {ops : List Op} (h : ∀ op ∈ ops, Plain op) : ProperRun E sys ops := by
  refine properRun_of_static sys_initial ?_ ?_
  · intro op hop
    have := h op hop
    cases op with
    | attach d c => exact ⟨demo_equipped d, fun _ => rfl⟩
    | send d p dest proto => exact this
    | run => exact True.intro
    | wait dt => exact True.intro
    | _ => exact this.elim
  · intro d d' c c' h1 h2 h3
    have key : ∀ a b : Nat, a < 200 → b < 200 → UInt8.ofNat (a + 1) = UInt8.ofNat (b + 1) → a = b := by
      intro a b ha hb hab
      have := congrArg UInt8.toNat hab
      simp only [UInt8.toNat_ofNat'] at this
      omega
    have h3' : (mac (UInt8.ofNat (d + 1))) = mac (UInt8.ofNat (d' + 1)) := h3
    unfold mac at h3'
    injection h3' with _ _ _ _ _ h3
    exact key d d' (h _ h1) (h _ h2) h3

theorem plain_steady {ops : List Op} (h : ∀ op ∈ ops, Plain op) (d : DevId) : SteadyRate d ops :=
  ⟨fun _ hr => (h _ hr).elim, fun _ hr => (h _ hr).elim⟩

/-- All hypotheses about a stage, tested. -/
theorem stageOk_of {s : Sys} {ops : List Op} {t T : Time} {g : Stage} (h : ∀ op ∈ ops, Plain op) (hs : exec env sys ops = .ok s)
    (h1 : g.packet.length ≤ 1492) (h2 : check env sys ops (fun s => (accepted g.src s.log).all fun f => decide (occupation env (sys.dev g.src) f ≤ g.work)) = true)
    (h3 : duringB env t T (fun u => decide ((u.dev g.src).addr = g.own)) ops sys = true)
    (h4 : duringB env t (T + g.queueing sys) (inReachB env g) ops sys = true)
    (h5 : duringB env t (T + g.bound sys) (listeningB g) ops sys = true) : StageOk env sys ops s t T g := by
  refine ⟨h1, plain_steady h _, ?_, during_of (fun u hu => of_decide_eq_true hu) ops h3, during_of inReach_of ops h4,
    during_of listening_of ops h5⟩
  obtain ⟨s', hs', hc⟩ := exists_of_check h2
  rw [hs] at hs'; injection hs' with hs'; subst hs'
  rw [List.all_eq_true] at hc
  exact fun f hf => of_decide_eq_true (hc f hf)

/-- Three frames on a ground/space channel: the third waits for the other two. -/
def leoLoad : List Op := [.attach 0 0, .attach 1 0, .wait 1, .send 0 [1] (.mac (mac 2)) 2048, .send 0 [2] (.mac (mac 9)) 2048,
  .send 0 [3] (.mac (mac 2)) 2048, .run, .run, .run, .run, .run, .run, .wait 100]

/-- The third frame. -/
def leoStage : Stage := ⟨0, 1, [3], 2048, mac 1, mac 2, 64, 64, 1⟩

/-- Two frames on an inter-satellite channel. -/
def islLoad (m : UInt8) : List Op := [.attach 3 1, .attach 5 1, .attach 7 1, .wait 1, .send 3 [1] (.mac (mac m)) 2048,
  .send 3 [2] (.mac (mac 8)) 2048, .run, .run, .run, .run, .wait 100]

/-- The second frame. -/
def islStage : Stage := ⟨3, 7, [2], 2048, mac 4, mac 8, 64, 64, 1⟩

/-- Test of `CarriesOut`. -/
def carriesB (E : Env) (R : Forwarder) : List Op → Sys → Bool
  | [], _ => true
  | op :: ops, s =>
    (match op with
      | .run =>
        match run E s with
        | .ok u => (newLog s u).all fun e =>
          match e.2 with
          | .rxCallback x p proto sa =>
            match R x p proto sa with
            | some (d, p', dest, proto') =>
              match ops with
              | .send d2 p2 dest2 proto2 :: _ => decide (d2 = d ∧ p2 = p' ∧ dest2 = dest ∧ proto2 = proto')
              | _ => false
            | none => true
          | _ => true
        | .fail _ => true
      | _ => true) &&
    match step E s op with
    | .ok u => carriesB E R ops u
    | .fail _ => true

theorem carriesOut_of {E : Env} {R : Forwarder} (ops : List Op) : ∀ {s : Sys}, carriesB E R ops s = true → CarriesOut E R s ops := by
  induction ops with
  | nil =>
    intro s h o1 o2 u u' ho
    simp at ho
  | cons op ops ih =>
    intro s h o1 o2 u u' ho hu hr t x p proto sa hm d p' dest proto' hR
    simp only [carriesB, Bool.and_eq_true] at h
    cases o1 with
    | nil =>
      injection hu with hu; subst hu
      simp only [List.nil_append, List.cons.injEq] at ho
      obtain ⟨rfl, rfl⟩ := ho
      have h1 := h.1
      simp only [hr, List.all_eq_true] at h1
      have h1 := h1 _ hm
      simp only [hR] at h1
      split at h1
      · simp only [decide_eq_true_eq] at h1
        obtain ⟨rfl, rfl, rfl, rfl⟩ := h1
        exact ⟨_, rfl⟩
      · cases h1
    | cons a o1 =>
      simp only [List.cons_append, List.cons.injEq] at ho
      obtain ⟨rfl, ho⟩ := ho
      simp only [exec] at hu
      rw [Outcome.bind_eq_ok] at hu
      obtain ⟨v, hv, hu⟩ := hu
      have h2 := h.2
      rw [hv] at h2
      exact ih h2 o1 o2 u u' ho hu hr t x p proto sa hm d p' dest proto' hR

/-- A packet from device 0 to device 1, which hands it to device 3, which sends it to device 5, while device 3 is sending another. -/
def routeLoad : List Op := [.attach 0 0, .attach 1 0, .attach 3 1, .attach 5 1, .wait 1, .send 0 [] (.mac (mac 2)) 2048, .wait 30,
  .send 3 [0] (.mac (mac 6)) 2048, .run, .run, .send 3 [] (.mac (mac 6)) 2048, .run, .run, .run, .run, .wait 500]

theorem routeLoad_plain : ∀ op ∈ routeLoad, Plain op := by
  intro op hop
  simp only [routeLoad, List.mem_cons, List.not_mem_nil, or_false] at hop
  rcases hop with rfl | rfl | rfl | rfl | rfl | rfl | rfl | rfl | rfl | rfl | rfl | rfl | rfl | rfl | rfl | rfl <;>
    simp [Plain]

theorem leoLoad_plain : ∀ op ∈ leoLoad, Plain op := by
  intro op hop
  simp only [leoLoad, List.mem_cons, List.not_mem_nil, or_false] at hop
  rcases hop with rfl | rfl | rfl | rfl | rfl | rfl | rfl | rfl | rfl | rfl | rfl | rfl | rfl <;>
    simp [Plain]

theorem islLoad_plain (m : UInt8) : ∀ op ∈ islLoad m, Plain op := by
  intro op hop
  simp only [islLoad, List.mem_cons, List.not_mem_nil, or_false] at hop
  rcases hop with rfl | rfl | rfl | rfl | rfl | rfl | rfl | rfl | rfl | rfl | rfl <;>
    simp [Plain]

end Demo

/-- The hypotheses of `C93_leo` are met by a frame that waits for two others. -/
example : ∃ s f, exec Demo.env Demo.sys Demo.leoLoad = .ok s ∧ ErrorFree Demo.env ∧ ProperRun Demo.env Demo.sys Demo.leoLoad ∧
    StageOk Demo.env Demo.sys Demo.leoLoad s 1 1 Demo.leoStage ∧
    During Demo.env Demo.sys Demo.leoLoad 1 (1 + Demo.leoStage.queueing Demo.sys) (OverLeo Demo.leoStage) ∧
    (1, Ev.sendRet Demo.leoStage.src Demo.leoStage.packet (.mac Demo.leoStage.to) Demo.leoStage.proto true f) ∈ s.log ∧
    1 + Demo.leoStage.bound Demo.sys < s.now := by
  obtain ⟨s, hs, hc⟩ := Demo.exists_of_check (E := Demo.env) (s := Demo.sys) (ops := Demo.leoLoad) (test := fun s =>
    decide ((1, Ev.sendRet Demo.leoStage.src Demo.leoStage.packet (.mac Demo.leoStage.to) Demo.leoStage.proto true
      (addHeader Demo.env.fcs [3] (Demo.mac 1) (Demo.mac 2) 2048)) ∈ s.log) && decide (1 + Demo.leoStage.bound Demo.sys < s.now)) (by decide +kernel)
  simp only [Bool.and_eq_true, decide_eq_true_eq] at hc
  exact ⟨s, _, hs, fun _ _ _ _ => rfl, Demo.plain_properRun _ Demo.leoLoad_plain,
    Demo.stageOk_of Demo.leoLoad_plain hs (by decide) (by decide +kernel) (by decide +kernel) (by decide +kernel) (by decide +kernel),
    Demo.during_of Demo.overLeo_of _ (by decide +kernel), hc.1, hc.2⟩

/-- The hypotheses of `C93_one_destination_partial` are met by a frame that waits for another. -/
example : ∃ s f, exec Demo.env Demo.sys (Demo.islLoad 8) = .ok s ∧ ProperRun Demo.env Demo.sys (Demo.islLoad 8) ∧
    StageOk Demo.env Demo.sys (Demo.islLoad 8) s 1 1 Demo.islStage ∧ OnlyTo Demo.islStage.src Demo.islStage.to (Demo.islLoad 8) ∧
    (1, Ev.sendRet Demo.islStage.src Demo.islStage.packet (.mac Demo.islStage.to) Demo.islStage.proto true f) ∈ s.log ∧
    1 + Demo.islStage.bound Demo.sys < s.now := by
  obtain ⟨s, hs, hc⟩ := Demo.exists_of_check (E := Demo.env) (s := Demo.sys) (ops := Demo.islLoad 8) (test := fun s =>
    decide ((1, Ev.sendRet Demo.islStage.src Demo.islStage.packet (.mac Demo.islStage.to) Demo.islStage.proto true
      (addHeader Demo.env.fcs [2] (Demo.mac 4) (Demo.mac 8) 2048)) ∈ s.log) && decide (1 + Demo.islStage.bound Demo.sys < s.now)) (by decide +kernel)
  simp only [Bool.and_eq_true, decide_eq_true_eq] at hc
  refine ⟨s, _, hs, Demo.plain_properRun _ (Demo.islLoad_plain 8),
    Demo.stageOk_of (Demo.islLoad_plain 8) hs (by decide) (by decide +kernel) (by decide +kernel) (by decide +kernel) (by decide +kernel),
    ?_, hc.1, hc.2⟩
  intro p x proto hm
  simp only [Demo.islLoad, List.mem_cons, reduceCtorEq, Op.send.injEq, List.not_mem_nil, or_false, false_or] at hm
  rcases hm with ⟨_, _, rfl, _⟩ | ⟨_, _, rfl, _⟩ <;> rfl

/-- The hypotheses of `C93_route` are met by a route over two channels with a frame in the way. -/
example : ∃ s f, exec Demo.env Demo.sys Demo.routeLoad = .ok s ∧ ProperRun Demo.env Demo.sys Demo.routeLoad ∧
    CarriesOut Demo.env Demo.bounce Demo.sys Demo.routeLoad ∧
    StagesOk Demo.env Demo.sys Demo.routeLoad s 1 1 [⟨0, 1, [], 2048, Demo.mac 1, Demo.mac 2, 64, 64, 1⟩, ⟨3, 5, [], 2048, Demo.mac 4, Demo.mac 6, 64, 64, 1⟩] ∧
    (∀ k ∈ [⟨0, 1, [], 2048, Demo.mac 1, Demo.mac 2, 64, 64, 1⟩, ⟨3, 5, [], 2048, Demo.mac 4, Demo.mac 6, 64, 64, 1⟩],
      Undivided Demo.env Demo.sys Demo.routeLoad k) ∧
    Leads Demo.bounce [⟨0, 1, [], 2048, Demo.mac 1, Demo.mac 2, 64, 64, 1⟩, ⟨3, 5, [], 2048, Demo.mac 4, Demo.mac 6, 64, 64, 1⟩] ∧
    (1, Ev.sendRet 0 [] (.mac (Demo.mac 2)) 2048 true f) ∈ s.log ∧
    1 + ([⟨0, 1, [], 2048, Demo.mac 1, Demo.mac 2, 64, 64, 1⟩, ⟨3, 5, [], 2048, Demo.mac 4, Demo.mac 6, 64, 64, 1⟩].map (Stage.bound Demo.sys)).sum < s.now := by
  obtain ⟨s, hs, hc⟩ := Demo.exists_of_check (E := Demo.env) (s := Demo.sys) (ops := Demo.routeLoad) (test := fun s =>
    decide ((1, Ev.sendRet 0 [] (.mac (Demo.mac 2)) 2048 true (addHeader Demo.env.fcs [] (Demo.mac 1) (Demo.mac 2) 2048)) ∈ s.log) &&
    decide (1 + ([⟨0, 1, [], 2048, Demo.mac 1, Demo.mac 2, 64, 64, 1⟩, ⟨3, 5, [], 2048, Demo.mac 4, Demo.mac 6, 64, 64, 1⟩].map (Stage.bound Demo.sys)).sum < s.now))
    (by decide +kernel)
  simp only [Bool.and_eq_true, decide_eq_true_eq] at hc
  refine ⟨s, _, hs, Demo.plain_properRun _ Demo.routeLoad_plain, Demo.carriesOut_of _ (by decide +kernel),
    ⟨Demo.stageOk_of Demo.routeLoad_plain hs (by decide) (by decide +kernel) (by decide +kernel) (by decide +kernel) (by decide +kernel),
      Demo.stageOk_of Demo.routeLoad_plain hs (by decide) (by decide +kernel) (by decide +kernel) (by decide +kernel) (by decide +kernel), True.intro⟩,
    ?_, ⟨rfl, True.intro⟩, hc.1, hc.2⟩
  intro k hk
  simp only [List.mem_cons, List.not_mem_nil, or_false] at hk
  refine Or.inr ?_
  intro p x proto hm
  rcases hk with rfl | rfl
  · simp only [Demo.routeLoad, List.mem_cons, reduceCtorEq, Op.send.injEq, List.not_mem_nil, or_false, false_or] at hm
    rcases hm with ⟨_, _, rfl, _⟩ | ⟨h, _⟩ | ⟨h, _⟩
    · rfl
    · exact absurd h (by decide)
    · exact absurd h (by decide)
  · simp only [Demo.routeLoad, List.mem_cons, reduceCtorEq, Op.send.injEq, List.not_mem_nil, or_false, false_or] at hm
    rcases hm with ⟨h, _⟩ | ⟨_, _, rfl, _⟩ | ⟨_, _, rfl, _⟩
    · exact absurd h (by decide)
    · rfl
    · rfl

/-- The hypotheses of `C93_programs` are met: two devices are attached, a packet is sent and its arrival dispatched. -/
example : ∃ R, ProperProgram Demo.env R Demo.sys [.attach 0 0, .send 0 [2] (.mac (Demo.mac 2)) 2048, .run, .run] ∧
    ForwardsProperly R := by
  refine ⟨fun x p proto sa => if p.length ≤ 100 then Demo.bounce x p proto sa else none, ?_, ?_⟩
  · intro o1 op o2 u ho hu
    match o1, ho with
    | [], ho =>
      simp only [List.nil_append, List.cons.injEq] at ho
      obtain ⟨rfl, _⟩ := ho
      injection hu with hu; subst hu
      exact Demo.plain_properRun Demo.env (ops := [.attach 0 0]) (by simp [Demo.Plain]) [] _ [] _ rfl rfl
    | [_], ho =>
      simp only [List.cons_append, List.nil_append, List.cons.injEq] at ho
      obtain ⟨_, rfl, _⟩ := ho
      exact ⟨True.intro, by simp⟩
    | [_, _], ho =>
      simp only [List.cons_append, List.nil_append, List.cons.injEq] at ho
      obtain ⟨_, _, rfl, _⟩ := ho
      exact ⟨True.intro, True.intro⟩
    | [_, _, _], ho =>
      simp only [List.cons_append, List.nil_append, List.cons.injEq] at ho
      obtain ⟨_, _, _, rfl, _⟩ := ho
      exact ⟨True.intro, True.intro⟩
    | a :: b :: c :: d :: o1, ho => simp at ho
  · intro x p proto sa d p' dest proto' h
    simp only at h
    split at h
    · unfold Demo.bounce at h
      split at h <;> split at h <;> try cases h
      · exact ⟨by simp, by simp⟩
      · rename_i n r hl _
        simp only [List.length_cons] at hl
        exact ⟨by simp, by simp only [List.length_cons]; omega⟩
    · cases h

/-- **C93 is false** over inter-satellite channels: a packet that waited behind one for another satellite is transmitted to that one
and never arrives, although its receiver was in reach all the time. -/
theorem C93_false : ¬ DeliveryUnderLoad := by
  intro H
  obtain ⟨s, hs, hc⟩ := Demo.exists_of_check (E := Demo.env) (s := Demo.sys) (ops := Demo.islLoad 6) (test := fun s =>
    decide ((1, Ev.sendRet Demo.islStage.src Demo.islStage.packet (.mac Demo.islStage.to) Demo.islStage.proto true
      (addHeader Demo.env.fcs [2] (Demo.mac 4) (Demo.mac 8) 2048)) ∈ s.log) && decide (1 + Demo.islStage.bound Demo.sys < s.now) &&
    (s.log.all fun e => decide (e.2 ≠ .rxCallback Demo.islStage.dst Demo.islStage.packet Demo.islStage.proto Demo.islStage.own))) (by decide +kernel)
  simp only [Bool.and_eq_true, decide_eq_true_eq, List.all_eq_true] at hc
  obtain ⟨t', hm, _⟩ := H _ _ s _ Demo.islStage 1 _ (fun _ _ _ _ => rfl) Demo.sys_initial (Demo.plain_properRun _ (Demo.islLoad_plain 6)) hs
    (Demo.stageOk_of (Demo.islLoad_plain 6) hs (by decide) (by decide +kernel) (by decide +kernel) (by decide +kernel) (by decide +kernel))
    hc.1.1 hc.1.2
  exact hc.2 _ hm rfl

end Verif
