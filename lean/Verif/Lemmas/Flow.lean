import Verif.Spec.Flow
import Verif.Lemmas.TraceFile
import Verif.Lemmas.Queueing
/-! Flow control: what the reports of one operation do to the flag and the byte counts. -/

namespace Verif
open Spec

/-- The reports of one operation and the queues before and after it. -/
theorem queueEvents_cases {E : Env} {s s' : Sys} {op : Op} (hi : Inv s) (h : step E s op = .ok s') :
    (queueEvents E s op = [] ∧ ∀ x, (s'.dev x).queue = (s.dev x).queue) ∨
    ∃ d, (∀ x, x ≠ d → (s'.dev x).queue = (s.dev x).queue) ∧
      ((∃ f, queueEvents E s op = [.drop d f] ∧ (s'.dev d).queue = (s.dev d).queue ∧
          (s.dev d).cap ≤ (s.dev d).queue.length) ∨
        (∃ f, queueEvents E s op = [.enqueue d f] ∧ (s'.dev d).queue = (s.dev d).queue ++ [f]) ∨
        (∃ f, queueEvents E s op = [.enqueue d f, .dequeue d f] ∧ (s.dev d).queue = [] ∧ (s'.dev d).queue = [] ∧
          0 < (s.dev d).cap) ∨
        (∃ f, queueEvents E s op = [.dequeue d f] ∧ (s.dev d).queue = f :: (s'.dev d).queue)) := by
  obtain ⟨l, hq, _, hf⟩ := qblock_step hi h
  have other : ∀ {d : DevId}, (∀ e ∈ queueEvents E s op, e.dev = d) → ∀ x, x ≠ d → (s'.dev x).queue = (s.dev x).queue := by
    intro d hd x hx
    have hn : ∀ (qs : List QEv) (q : List Bytes), (∀ e ∈ qs, e.dev = d) → follow x q qs = some q := by
      intro qs
      induction qs with
      | nil => intro q _; rfl
      | cons e qs ih =>
        intro q hd
        have he := hd e (by simp)
        have ht := ih q (fun e he => hd e (by simp [he]))
        cases e <;> (simp only [QEv.dev] at he; subst he; simp only [follow]) <;> first | (rw [if_neg (Ne.symm hx)]; exact ht) | exact ht
    have := hf x
    rw [hn _ _ hd] at this
    injection this with this
    exact this.symm
  have room : ∀ {d : DevId} {f : Bytes} {t : List QEv}, queueEvents E s op = .enqueue d f :: t →
      (s.dev d).queue.length < (s.dev d).cap := by
    intro d f t he
    cases op with
    | send x p dest proto =>
      cases dest with
      | other => simp [queueEvents] at he
      | mac m =>
        simp only [queueEvents] at he
        split at he
        · simp at he
        · split at he
          · rename_i hc
            have := (List.cons.inj he).1
            injection this with this _
            subst this; exact hc
          · simp at he
    | run =>
      exfalso
      simp only [queueEvents] at he
      split at he
      · split at he
        · rename_i x _ _
          cases hx : (s.dev x).queue <;> simp [hx] at he
        · simp at he
      · simp at he
    | _ => simp [queueEvents] at he
  have full : ∀ {d : DevId} {f : Bytes}, queueEvents E s op = [.drop d f] → (s.dev d).cap ≤ (s.dev d).queue.length := by
    intro d f he
    cases op with
    | send x p dest proto =>
      cases dest with
      | other => simp [queueEvents] at he
      | mac m =>
        simp only [queueEvents] at he
        split at he
        · simp at he
        · split at he
          · simp at he
          · rename_i hc
            have := (List.cons.inj he).1
            injection this with this _
            subst this; omega
    | run =>
      exfalso
      simp only [queueEvents] at he
      split at he
      · split at he
        · rename_i x _ _
          cases hx : (s.dev x).queue <;> simp [hx] at he
        · simp at he
      · simp at he
    | _ => simp [queueEvents] at he
  have none : queueEvents E s op = [] → ∀ x, (s'.dev x).queue = (s.dev x).queue := by
    intro he x
    have := hf x
    rw [he] at this
    injection this with this
    exact this.symm
  generalize hqe : queueEvents E s op = qs at hq
  cases hq with
  | plain => exact .inl ⟨rfl, none hqe⟩
  | down => exact .inl ⟨rfl, none hqe⟩
  | stop => exact .inl ⟨rfl, none hqe⟩
  | own => exact .inl ⟨rfl, none hqe⟩
  | lost => exact .inl ⟨rfl, none hqe⟩
  | good => exact .inl ⟨rfl, none hqe⟩
  | full d p dest proto f _ =>
    refine .inr ⟨d, other (by rw [hqe]; simp [QEv.dev]), .inl ⟨f, rfl, ?_, full hqe⟩⟩
    have := hf d
    rw [hqe] at this
    injection this with this
    exact this.symm
  | queued d p dest proto f _ =>
    refine .inr ⟨d, other (by rw [hqe]; simp [QEv.dev]), .inr (.inl ⟨f, rfl, ?_⟩)⟩
    have := hf d
    rw [hqe] at this
    simp only [follow, if_true] at this
    injection this with this
    exact this.symm
  | start d p dest proto f a l _ _ =>
    have hroom := room hqe
    refine .inr ⟨d, other (by rw [hqe]; simp [QEv.dev]), .inr (.inr (.inl ⟨f, rfl, ?_⟩))⟩
    have hb : (s.dev d).busy = false := by
      cases op with
      | send x p dest proto =>
        cases dest with
        | other => simp [queueEvents] at hqe
        | mac m =>
          simp only [queueEvents] at hqe
          split at hqe
          · simp at hqe
          · split at hqe
            · have h1 := (List.cons.inj hqe).1
              injection h1 with h1 _
              subst h1
              have h2 := (List.cons.inj hqe).2
              split at h2
              · simp at h2
              · rename_i hb; simpa using hb
            · simp at hqe
      | run =>
        simp only [queueEvents] at hqe
        split at hqe
        · split at hqe
          · rename_i x _ _
            cases hx : (s.dev x).queue <;> simp [hx] at hqe
          · simp at hqe
        · simp at hqe
      | _ => simp [queueEvents] at hqe
    have hempty := ((hi.dev d).ready hb).2.1
    have := hf d
    rw [hqe, hempty] at this
    simp only [follow, if_true, List.nil_append] at this
    injection this with this
    exact ⟨hempty, this.symm, by rw [hempty] at hroom; exact hroom⟩
  | next d f g a l _ =>
    refine .inr ⟨d, other (by rw [hqe]; simp [QEv.dev]), .inr (.inr (.inr ⟨g, rfl, ?_⟩))⟩
    have := hf d
    rw [hqe] at this
    simp only [follow, if_true] at this
    split at this
    · split at this
      · rename_i hg
        injection this with this
        rename_i hq
        rw [hq, hg, this]
      · cases this
    · cases this

/-! ### The sinks -/

theorem report_fix (h : FSys) (n : Nat) (q : QEv) : (h.report n q).sys = h.sys ∧ (h.report n q).conns = h.conns ∧
    (h.report n q).aggregated = h.aggregated ∧ (h.report n q).initialized = h.initialized := by
  unfold FSys.report
  have : ∀ (k : Nat) (h : FSys), ((fun h => FSys.sink h n q)^[k] h).sys = h.sys ∧ ((fun h => FSys.sink h n q)^[k] h).conns = h.conns ∧
      ((fun h => FSys.sink h n q)^[k] h).aggregated = h.aggregated ∧ ((fun h => FSys.sink h n q)^[k] h).initialized = h.initialized := by
    intro k
    induction k with
    | zero => intro h; exact ⟨rfl, rfl, rfl, rfl⟩
    | succ k ih =>
      intro h
      rw [Function.iterate_succ_apply]
      obtain ⟨h1, h2, h3, h4⟩ := ih (h.sink n q)
      rw [h1, h2, h3, h4]
      cases q <;> exact ⟨rfl, rfl, rfl, rfl⟩
  exact this _ h

theorem report_stopped (h : FSys) (n : Nat) (q : QEv) :
    (h.report n q).stopped = if h.conns q.dev = 0 then h.stopped else (h.sink n q).stopped := by
  unfold FSys.report
  have : ∀ (k : Nat) (h : FSys), ((fun h => FSys.sink h n q)^[k] h).stopped = if k = 0 then h.stopped else (h.sink n q).stopped := by
    intro k
    induction k with
    | zero => intro h; rfl
    | succ k ih =>
      intro h
      rw [Function.iterate_succ_apply, ih (h.sink n q), if_neg (Nat.succ_ne_zero k)]
      split
      · rfl
      · funext x
        cases q <;> simp only [FSys.sink] <;> split <;> rfl
  exact this _ h

theorem report_on {h : FSys} {n : Nat} {q : QEv} (hc : h.conns q.dev ≠ 0) : (h.report n q).stopped = (h.sink n q).stopped := by
  rw [report_stopped, if_neg hc]

theorem report_bytes (h : FSys) (n : Nat) (q : QEv) (x : DevId) :
    (h.report n q).bytesIn x = h.bytesIn x + (match q with
      | .enqueue d f => if x = d then h.conns d * f.length else 0
      | _ => 0) ∧
    (h.report n q).bytesOut x = h.bytesOut x + (match q with
      | .dequeue d f => if x = d then h.conns d * f.length else 0
      | _ => 0) := by
  unfold FSys.report
  have : ∀ (k : Nat) (h : FSys), ((fun h => FSys.sink h n q)^[k] h).bytesIn x = h.bytesIn x + (match q with
      | .enqueue d f => if x = d then k * f.length else 0
      | _ => 0) ∧
      ((fun h => FSys.sink h n q)^[k] h).bytesOut x = h.bytesOut x + (match q with
      | .dequeue d f => if x = d then k * f.length else 0
      | _ => 0) := by
    intro k
    induction k with
    | zero => intro h; cases q <;> simp
    | succ k ih =>
      intro h
      rw [Function.iterate_succ_apply]
      obtain ⟨h1, h2⟩ := ih (h.sink n q)
      rw [h1, h2]
      cases q with
      | enqueue d f =>
        simp only [FSys.sink]
        by_cases hx : x = d
        · subst hx; simp [Nat.add_mul]; omega
        · simp [hx]
      | dequeue d f =>
        simp only [FSys.sink]
        by_cases hx : x = d
        · subst hx; simp [Nat.add_mul]; omega
        · simp [hx]
      | drop d f => simp [FSys.sink]
  have := this (h.conns q.dev) h
  cases q <;> exact this

/-! ### One operation of the network -/

/-- The flag of a connected device tells whether its queue is full. -/
def Exact (h : FSys) (d : DevId) : Prop := h.stopped d = true ↔ (h.sys.dev d).cap ≤ (h.sys.dev d).queue.length

theorem stepF_op {E : Env} {h h' : FSys} {o : Op} (hs : stepF E h (.op o) = .ok h') :
    step E h.sys o = .ok h'.sys ∧
      h' = { h.reports (queueBefore h.sys (queueEvents E h.sys o)) (queueEvents E h.sys o) with sys := h'.sys } := by
  simp only [stepF] at hs
  rw [Outcome.bind_eq_ok] at hs
  obtain ⟨s', h1, h2⟩ := hs
  injection h2 with h2
  subst h2
  exact ⟨h1, rfl⟩

theorem reports_fix (h : FSys) (n : Nat) (l : List QEv) : (h.reports n l).sys = h.sys ∧ (h.reports n l).conns = h.conns ∧
    (h.reports n l).aggregated = h.aggregated ∧ (h.reports n l).initialized = h.initialized := by
  induction l generalizing h n with
  | nil => exact ⟨rfl, rfl, rfl, rfl⟩
  | cons q l ih =>
    simp only [FSys.reports]
    obtain ⟨h1, h2, h3, h4⟩ := ih (h.report (q.count n) q) (q.count n)
    obtain ⟨g1, g2, g3, g4⟩ := report_fix h (q.count n) q
    exact ⟨h1.trans g1, h2.trans g2, h3.trans g3, h4.trans g4⟩

theorem exact_op {E : Env} {h h' : FSys} {o : Op} {d : DevId} (hi : Inv h.sys) (hc : h.conns d ≠ 0) (hx : Exact h d)
    (hs : stepF E h (.op o) = .ok h') : Exact h' d := by
  obtain ⟨h1, h2⟩ := stepF_op hs
  have hcap := cap_step h1 d
  have hst : h'.stopped = (h.reports (queueBefore h.sys (queueEvents E h.sys o)) (queueEvents E h.sys o)).stopped := by rw [h2]
  unfold Exact at hx ⊢
  rw [hcap, hst]
  have hcap2 := ((inv_step hi h1).dev d).cap
  rw [hcap] at hcap2
  rcases queueEvents_cases hi h1 with ⟨he, hq⟩ | ⟨x, hother, hcase⟩
  · rw [he, hq d]; exact hx
  · by_cases hxd : d = x
    · subst hxd
      rcases hcase with ⟨f, he, hq, hfull⟩ | ⟨f, he, hq⟩ | ⟨f, he, hq, hq', hpos⟩ | ⟨f, he, hq⟩
      · rw [he, hq]
        simp only [FSys.reports]
        rw [report_on (q := .drop d f) hc]
        simpa [FSys.sink] using hfull
      · rw [he, hq]
        simp only [FSys.reports]
        rw [report_on (q := .enqueue d f) hc]
        simp only [FSys.sink, queueBefore, QEv.count, QEv.dev, true_and]
        rw [hq] at hcap2
        simp only [List.length_append, List.length_cons, List.length_nil] at hcap2 ⊢
        have : ¬ (h.sys.dev d).cap ≤ (h.sys.dev d).queue.length := by omega
        have hns : h.stopped d = false := by
          cases hb : h.stopped d
          · rfl
          · exact absurd (hx.mp hb) this
        split
        · simp; omega
        · rw [hns]; simp; omega
      · rw [he, hq']
        obtain ⟨g1, g2, g3, g4⟩ := report_fix h 1 (.enqueue d f)
        simp only [FSys.reports, QEv.count, queueBefore, QEv.dev, hq, List.length_nil, Nat.zero_add, Nat.sub_self]
        rw [report_on (q := .dequeue d f) (by rw [g2]; exact hc)]
        simp only [FSys.sink, g1, true_and]
        rw [if_pos (by omega)]
        simp; omega
      · rw [he]
        simp only [FSys.reports]
        rw [report_on (q := .dequeue d f) hc]
        simp only [FSys.sink, queueBefore, QEv.count, QEv.dev, true_and]
        have hl : (h.sys.dev d).queue.length = (h'.sys.dev d).queue.length + 1 := by rw [hq]; rfl
        have hcapo := (hi.dev d).cap
        rw [if_pos (by omega)]
        simp; omega
    · have key : ∀ (n : Nat) (l : List QEv) (h : FSys), (∀ e ∈ l, e.dev = x) → (h.reports n l).stopped d = h.stopped d := by
        intro n l
        induction l generalizing n with
        | nil => intro h _; rfl
        | cons e l ih =>
          intro h hd
          simp only [FSys.reports]
          rw [ih _ _ (fun e he => hd e (by simp [he])), report_stopped]
          split
          · rfl
          · have := hd e (by simp)
            cases e <;> (simp only [QEv.dev] at this; subst this; simp [FSys.sink, hxd])
      rw [key, hother d hxd]
      · exact hx
      · rcases hcase with ⟨f, he, _⟩ | ⟨f, he, _⟩ | ⟨f, he, _⟩ | ⟨f, he, _⟩ <;> (rw [he]; simp [QEv.dev])

/-! ### Histories -/

/-- The operations of the network in a history. -/
def netOps (ops : List FOp) : List Op := ops.filterMap (fun | .op o => some o | _ => none)

theorem stepF_net {E : Env} {h h' : FSys} {o : FOp} (hs : stepF E h o = .ok h') :
    exec E h.sys (netOps [o]) = .ok h'.sys := by
  cases o with
  | connect d =>
    simp only [stepF] at hs
    split at hs
    · cases hs
    · injection hs with hs; subst hs; rfl
  | aggregate d => injection hs with hs; subst hs; rfl
  | init d =>
    simp only [stepF] at hs
    split at hs
    · injection hs with hs; subst hs; rfl
    · split at hs
      · split at hs
        · cases hs
        · injection hs with hs; subst hs; rfl
      · injection hs with hs; subst hs; rfl
  | op o =>
    show exec E h.sys [o] = _
    simp only [exec]
    rw [(stepF_op hs).1]; rfl

theorem execF_net {E : Env} {h h' : FSys} {ops : List FOp} (hs : execF E h ops = .ok h') :
    exec E h.sys (netOps ops) = .ok h'.sys := by
  induction ops generalizing h with
  | nil => injection hs with hs; subst hs; rfl
  | cons o ops ih =>
    simp only [execF] at hs
    rw [Outcome.bind_eq_ok] at hs
    obtain ⟨h1, hs1, hs2⟩ := hs
    rw [show netOps (o :: ops) = netOps [o] ++ netOps ops by
      show (o :: ops).filterMap _ = _
      rw [show o :: ops = [o] ++ ops from rfl, List.filterMap_append]; rfl]
    rw [exec_append, stepF_net hs1]
    exact ih hs2

theorem execF_append (E : Env) (h : FSys) (a b : List FOp) :
    execF E h (a ++ b) = (execF E h a).bind (fun h' => execF E h' b) := by
  induction a generalizing h with
  | nil => rfl
  | cons o a ih =>
    simp only [List.cons_append, execF]
    show (stepF E h o).bind _ = ((stepF E h o).bind _).bind _
    cases stepF E h o with
    | ok h1 => exact ih h1
    | fail f => rfl

theorem execF_split {E : Env} {h h' : FSys} {a b : List FOp} (hs : execF E h (a ++ b) = .ok h') :
    ∃ h1, execF E h a = .ok h1 ∧ execF E h1 b = .ok h' := by
  rw [execF_append] at hs
  cases ha : execF E h a with
  | ok h1 => rw [ha] at hs; exact ⟨h1, rfl, hs⟩
  | fail f => rw [ha] at hs; cases hs

theorem invF_step {E : Env} {h h' : FSys} {o : FOp} (hi : Inv h.sys) (hs : stepF E h o = .ok h') : Inv h'.sys :=
  inv_exec hi (stepF_net hs)

theorem enqueue_send {E : Env} {s : Sys} {op : Op} {d : DevId} {f : Bytes} {t : List QEv}
    (he : queueEvents E s op = .enqueue d f :: t) : ∃ p dest proto, op = .send d p dest proto := by
  cases op with
  | send x p dest proto =>
    cases dest with
    | other => simp [queueEvents] at he
    | mac m =>
      simp only [queueEvents] at he
      split at he
      · simp at he
      · split at he
        · have h1 := (List.cons.inj he).1
          injection h1 with h1 _
          subst h1
          exact ⟨_, _, _, rfl⟩
        · simp at he
  | run =>
    exfalso
    simp only [queueEvents] at he
    split at he
    · split at he
      · rename_i x _ _
        cases hx : (s.dev x).queue <;> simp [hx] at he
      · simp at he
    · simp at he
  | _ => simp [queueEvents] at he

/-- What the operations other than those of the network do. -/
theorem stepF_other {E : Env} {h h' : FSys} {o : FOp} (hs : stepF E h o = .ok h') (ho : ∀ op, o ≠ .op op) :
    h'.sys = h.sys ∧ h'.stopped = h.stopped ∧ h'.bytesIn = h.bytesIn ∧ h'.bytesOut = h.bytesOut ∧
      ∀ d, h.conns d ≤ h'.conns d := by
  cases o with
  | connect d =>
    simp only [stepF] at hs
    split at hs
    · cases hs
    · injection hs with hs; subst hs
      refine ⟨rfl, rfl, rfl, rfl, fun x => ?_⟩
      show h.conns x ≤ if x = d then h.conns x + 1 else h.conns x
      split <;> omega
  | aggregate d => injection hs with hs; subst hs; exact ⟨rfl, rfl, rfl, rfl, fun _ => Nat.le_refl _⟩
  | init d =>
    simp only [stepF] at hs
    split at hs
    · injection hs with hs; subst hs; exact ⟨rfl, rfl, rfl, rfl, fun _ => Nat.le_refl _⟩
    · split at hs
      · split at hs
        · cases hs
        · injection hs with hs; subst hs
          refine ⟨rfl, rfl, rfl, rfl, fun x => ?_⟩
          show h.conns x ≤ if x = d then h.conns x + 1 else h.conns x
          split <;> omega
      · injection hs with hs; subst hs; exact ⟨rfl, rfl, rfl, rfl, fun _ => Nat.le_refl _⟩
  | op op => exact absurd rfl (ho op)

theorem op_conns {E : Env} {h h' : FSys} {o : Op} (hs : stepF E h (.op o) = .ok h') : h'.conns = h.conns ∧
    h'.aggregated = h.aggregated ∧ h'.initialized = h.initialized := by
  obtain ⟨_, h2⟩ := stepF_op hs
  rw [h2]
  exact (reports_fix h _ _).2

theorem conns_mono {E : Env} {h h' : FSys} {o : FOp} (hs : stepF E h o = .ok h') (d : DevId) : h.conns d ≤ h'.conns d := by
  cases o with
  | op o => rw [(op_conns hs).1]
  | _ => exact (stepF_other hs (by intro op hh; cases hh)).2.2.2.2 d

theorem exact_step {E : Env} {h h' : FSys} {o : FOp} {d : DevId} (hi : Inv h.sys) (hc : h.conns d ≠ 0) (hx : Exact h d)
    (hs : stepF E h o = .ok h') : Exact h' d := by
  cases o with
  | op o => exact exact_op hi hc hx hs
  | _ =>
    obtain ⟨h1, h2, _⟩ := stepF_other hs (by intro op hh; cases hh)
    unfold Exact
    rw [h1, h2]
    exact hx

theorem exact_exec {E : Env} {d : DevId} : ∀ (ops : List FOp) {h h' : FSys}, Inv h.sys → h.conns d ≠ 0 → Exact h d →
    execF E h ops = .ok h' → Exact h' d ∧ h'.conns d ≠ 0 ∧ Inv h'.sys
  | [], h, h', hi, hc, hx, hs => by injection hs with hs; subst hs; exact ⟨hx, hc, hi⟩
  | o :: ops, h, h', hi, hc, hx, hs => by
    simp only [execF] at hs
    rw [Outcome.bind_eq_ok] at hs
    obtain ⟨h1, hs1, hs2⟩ := hs
    have hm := conns_mono hs1 d
    exact exact_exec ops (invF_step hi hs1) (by omega) (exact_step hi hc hx hs1) hs2

/-- A device on which nothing is sent has an empty queue. -/
theorem unused_op {E : Env} {s s' : Sys} {o : Op} {d : DevId} (hi : Inv s) (hn : ∀ p dest proto, o ≠ .send d p dest proto)
    (hq : (s.dev d).queue = []) (h : step E s o = .ok s') : (s'.dev d).queue = [] := by
  rcases queueEvents_cases hi h with ⟨_, h1⟩ | ⟨x, hother, hcase⟩
  · rw [h1, hq]
  · by_cases hx : d = x
    · subst hx
      rcases hcase with ⟨f, _, h1, _⟩ | ⟨f, he, _⟩ | ⟨f, he, _⟩ | ⟨f, _, h1⟩
      · rw [h1, hq]
      · obtain ⟨p, dest, proto, rfl⟩ := enqueue_send he
        exact absurd rfl (hn p dest proto)
      · obtain ⟨p, dest, proto, rfl⟩ := enqueue_send he
        exact absurd rfl (hn p dest proto)
      · rw [hq] at h1; cases h1
    · rw [hother d hx, hq]

theorem reports_unconnected {h : FSys} {d : DevId} (hc : h.conns d = 0) (n : Nat) (l : List QEv) :
    (h.reports n l).stopped d = h.stopped d := by
  induction l generalizing n h with
  | nil => rfl
  | cons e l ih =>
    simp only [FSys.reports]
    rw [ih (by rw [(report_fix h _ e).2.1]; exact hc), report_stopped]
    split
    · rfl
    · rename_i hne
      have : d ≠ e.dev := fun hh => hne (by rw [← hh]; exact hc)
      cases e <;> (simp only [QEv.dev] at this; simp [FSys.sink, this])

/-- The flag of a device with room in an empty queue stays off while nothing is sent on it. -/
theorem unused_flag {E : Env} {h h' : FSys} {o : Op} {d : DevId} (hi : Inv h.sys)
    (hq : (h.sys.dev d).queue = []) (hcap : 0 < (h.sys.dev d).cap) (hst : h.stopped d = false)
    (hn : ∀ p dest proto, o ≠ .send d p dest proto)
    (hs : stepF E h (.op o) = .ok h') : h'.stopped d = false := by
  by_cases hc : h.conns d = 0
  · obtain ⟨_, h2⟩ := stepF_op hs
    rw [h2]
    show (h.reports _ _).stopped d = false
    rw [reports_unconnected hc, hst]
  · have hx : Exact h d := by
      unfold Exact
      rw [hst, hq]
      simp; omega
    have hx' := exact_op hi hc hx hs
    obtain ⟨h1, _⟩ := stepF_op hs
    unfold Exact at hx'
    rw [unused_op hi hn hq h1, cap_step h1 d] at hx'
    cases hb : h'.stopped d
    · rfl
    · have := hx'.mp hb
      simp at this; omega

theorem unused_exec {E : Env} {d : DevId} : ∀ (ops : List FOp) {h h' : FSys}, Inv h.sys → sends d ops = 0 →
    (h.sys.dev d).queue = [] → 0 < (h.sys.dev d).cap → h.stopped d = false → execF E h ops = .ok h' →
    Inv h'.sys ∧ (h'.sys.dev d).queue = [] ∧ (h'.sys.dev d).cap = (h.sys.dev d).cap ∧ h'.stopped d = false
  | [], h, h', hi, _, hq, _, hst, hs => by injection hs with hs; subst hs; exact ⟨hi, hq, rfl, hst⟩
  | o :: ops, h, h', hi, hn, hq, hcap, hst, hs => by
    simp only [execF] at hs
    rw [Outcome.bind_eq_ok] at hs
    obtain ⟨h1, hs1, hs2⟩ := hs
    unfold sends at hn
    rw [List.countP_cons] at hn
    have hn1 : isSend d o = false := by
      cases hb : isSend d o
      · rfl
      · rw [hb] at hn; simp at hn
    have hn2 : sends d ops = 0 := by unfold sends; omega
    have key : (h1.sys.dev d).queue = [] ∧ (h1.sys.dev d).cap = (h.sys.dev d).cap ∧ h1.stopped d = false := by
      cases o with
      | op o =>
        have hne : ∀ p dest proto, o ≠ .send d p dest proto := by
          intro p dest proto hh
          subst hh
          simp [isSend] at hn1
        exact ⟨unused_op hi hne hq (stepF_op hs1).1, cap_step (stepF_op hs1).1 d, unused_flag hi hq hcap hst hne hs1⟩
      | _ =>
        obtain ⟨g1, g2, _⟩ := stepF_other hs1 (by intro op hh; cases hh)
        rw [g1, g2]
        exact ⟨hq, rfl, hst⟩
    obtain ⟨r1, r2, r3, r4⟩ := unused_exec ops (invF_step hi hs1) hn2 key.1 (by rw [key.2.1]; exact hcap) key.2.2 hs2
    exact ⟨r1, r2, r3.trans key.2.1, r4⟩

/-! ### Accepted packets -/

theorem accepted_other {E : Env} {s s' : Sys} {o : Op} {d : DevId} (hi : Inv s) (hn : ∀ p dest proto, o ≠ .send d p dest proto)
    (h : step E s o = .ok s') : accepted d s'.log = accepted d s.log := by
  cases devStep_step hi.dev h d with
  | keep acc _ _ _ hacc _ hl =>
    rcases hacc with rfl | ⟨_, dest, f, rfl, p, proto, m, rfl, _⟩
    · simpa using hl.acc
    · exact absurd rfl (hn p dest proto)
  | start f dest hop =>
    obtain ⟨p, proto, m, rfl, _⟩ := hop
    exact absurd rfl (hn p dest proto)
  | stop f dest _ _ _ _ _ _ hl => simpa using hl.acc
  | next f g dest rest _ _ _ _ _ _ _ _ hl => simpa using hl.acc

/-! ### Bytes -/

/-- As many bytes are reported as queued but not yet transmitted as the queue contains, once for each connection. -/
def Balanced (h : FSys) (d : DevId) : Prop :=
  h.bytesIn d = h.bytesOut d + h.conns d * queuedBytes (h.sys.dev d).queue

theorem balanced_op {E : Env} {h h' : FSys} {o : Op} {d : DevId} (hi : Inv h.sys) (hx : Balanced h d)
    (hs : stepF E h (.op o) = .ok h') : Balanced h' d := by
  obtain ⟨h1, h2⟩ := stepF_op hs
  have hin : h'.bytesIn = (h.reports (queueBefore h.sys (queueEvents E h.sys o)) (queueEvents E h.sys o)).bytesIn := by rw [h2]
  have hout : h'.bytesOut = (h.reports (queueBefore h.sys (queueEvents E h.sys o)) (queueEvents E h.sys o)).bytesOut := by rw [h2]
  unfold Balanced at hx ⊢
  rw [hin, hout, (op_conns hs).1]
  rcases queueEvents_cases hi h1 with ⟨he, hq⟩ | ⟨x, hother, hcase⟩
  · rw [he, hq d]; exact hx
  · by_cases hxd : d = x
    · subst hxd
      rcases hcase with ⟨f, he, hq, _⟩ | ⟨f, he, hq⟩ | ⟨f, he, hq, hq', _⟩ | ⟨f, he, hq⟩
      · rw [he, hq]
        simp only [FSys.reports]
        rw [(report_bytes _ _ _ d).1, (report_bytes _ _ _ d).2]
        exact hx
      · rw [he, hq]
        simp only [FSys.reports]
        rw [(report_bytes _ _ _ d).1, (report_bytes _ _ _ d).2]
        simp only [if_true, queuedBytes, List.map_append, List.map_cons, List.map_nil, List.sum_append, List.sum_cons,
          List.sum_nil, Nat.add_zero, Nat.mul_add]
        unfold queuedBytes at hx
        omega
      · rw [he, hq']
        simp only [FSys.reports]
        rw [(report_bytes _ _ _ d).1, (report_bytes _ _ _ d).2, (report_bytes _ _ _ d).1, (report_bytes _ _ _ d).2,
          (report_fix h _ _).2.1]
        rw [hq] at hx
        simp only [if_true]
        omega
      · rw [he]
        simp only [FSys.reports]
        rw [(report_bytes _ _ _ d).1, (report_bytes _ _ _ d).2]
        rw [hq] at hx
        simp only [if_true, queuedBytes, List.map_cons, List.sum_cons, Nat.mul_add] at hx ⊢
        omega
    · have key : ∀ (n : Nat) (l : List QEv) (h : FSys), (∀ e ∈ l, e.dev = x) → (h.reports n l).bytesIn d = h.bytesIn d ∧
          (h.reports n l).bytesOut d = h.bytesOut d := by
        intro n l
        induction l generalizing n with
        | nil => intro h _; exact ⟨rfl, rfl⟩
        | cons e l ih =>
          intro h hd
          simp only [FSys.reports]
          obtain ⟨i1, i2⟩ := ih (e.count n) (h.report (e.count n) e) (fun e he => hd e (by simp [he]))
          rw [i1, i2, (report_bytes _ _ _ d).1, (report_bytes _ _ _ d).2]
          have := hd e (by simp)
          cases e <;> (simp only [QEv.dev] at this; subst this; simp [hxd])
      have hall : ∀ e ∈ queueEvents E h.sys o, e.dev = x := by
        rcases hcase with ⟨f, he, _⟩ | ⟨f, he, _⟩ | ⟨f, he, _⟩ | ⟨f, he, _⟩ <;> (rw [he]; simp [QEv.dev])
      rw [(key _ _ _ hall).1, (key _ _ _ hall).2, hother d hxd]
      exact hx

end Verif
