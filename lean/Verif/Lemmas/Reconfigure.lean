import Verif.Lemmas.Reentrant
/-! Connected code that reconfigures devices. -/

namespace Verif
open Spec

/-! ### Histories without nested calls of `Send` -/

mutual
theorem quiet_callOk : ∀ (c : Call) (B : List DevId), quietCall c = true → callOk B c = true
  | .mk .., _, h => by rw [quietCall] at h; cases h
  | .conf op sc, B, h => by
    rw [quietCall, Bool.and_eq_true] at h
    rw [callOk, Bool.and_eq_true]
    exact ⟨h.1, quiet_calmOk sc B h.2⟩
theorem quiet_calmOk : ∀ (sc : Script) (B : List DevId), quietScript sc = true → calmOk B sc = true
  | .nil, _, _ => by rw [calmOk]
  | .cons _ c rest, B, h => by
    rw [quietScript, Bool.and_eq_true] at h
    rw [calmOk, Bool.and_eq_true]
    exact ⟨quiet_callOk c B h.1, quiet_calmOk rest B h.2⟩
end

theorem quiet_scriptOk (sc : Script) (B : List DevId) (d : DevId) (h : quietScript sc = true) :
    scriptOk B d sc = true := by
  match sc with
  | .nil => rw [scriptOk]
  | .cons k c rest =>
    rw [quietScript, Bool.and_eq_true] at h
    rw [scriptOk, Bool.and_eq_true]
    exact ⟨quiet_callOk c _ h.1, quiet_scriptOk rest B d h.2⟩

theorem quiet_opOk {s : Sys} {op : ROp} (h : quietOp op = true) : opOk s op = true := by
  cases op with
  | call c =>
    cases c with
    | mk d p dest proto sc =>
      simp only [opOk, callOk, Bool.and_eq_true]
      exact ⟨by simp, quiet_scriptOk sc [] d h⟩
    | conf op sc =>
      simp only [quietOp, Bool.and_eq_true] at h
      simp only [opOk, callOk, Bool.and_eq_true]
      exact ⟨h.1, quiet_calmOk sc [] h.2⟩
  | run sc =>
    simp only [opOk]
    split
    · rfl
    · split
      · exact quiet_scriptOk sc [] _ h
      · exact quiet_calmOk sc [] h
  | plain op => rfl

theorem quiet_histOk {E : Env} {s : Sys} {ops : List ROp} (h : ∀ op ∈ ops, quietOp op = true) : HistOk E s ops := by
  intro pre op post s' hpre _
  exact quiet_opOk (h op (by simp [hpre]))

/-! ### Setters as functions on devices -/

/-- What a sequence of setters does to the devices. -/
structure Tune where
  /-- the change of each device -/
  fn : DevId → Dev → Dev
  linkUp : ∀ x v, (fn x v).linkUp = v.linkUp
  busy : ∀ x v, (fn x v).busy = v.busy
  hasQueue : ∀ x v, (fn x v).hasQueue = v.hasQueue
  queue : ∀ x v, (fn x v).queue = v.queue
  cap : ∀ x v, (fn x v).cap = v.cap
  cur : ∀ x v, (fn x v).cur = v.cur
  setb : ∀ x v b, fn x { v with busy := b } = { fn x v with busy := b }
  setc : ∀ x v c, fn x { v with cur := c } = { fn x v with cur := c }
  setq : ∀ x v q, fn x { v with queue := q } = { fn x v with queue := q }

/-- The system after the setters. -/
def Tune.app (T : Tune) (s : Sys) : Sys := { s with dev := fun x => T.fn x (s.dev x) }

/-- No setters. -/
def Tune.id : Tune :=
  ⟨fun _ v => v, fun _ _ => rfl, fun _ _ => rfl, fun _ _ => rfl, fun _ _ => rfl, fun _ _ => rfl, fun _ _ => rfl,
    fun _ _ _ => rfl, fun _ _ _ => rfl, fun _ _ _ => rfl⟩

/-- One after the other. -/
def Tune.comp (A B : Tune) : Tune where
  fn x v := B.fn x (A.fn x v)
  linkUp x v := by rw [B.linkUp, A.linkUp]
  busy x v := by rw [B.busy, A.busy]
  hasQueue x v := by rw [B.hasQueue, A.hasQueue]
  queue x v := by rw [B.queue, A.queue]
  cap x v := by rw [B.cap, A.cap]
  cur x v := by rw [B.cur, A.cur]
  setb x v b := by rw [A.setb, B.setb]
  setc x v c := by rw [A.setc, B.setc]
  setq x v q := by rw [A.setq, B.setq]

/-- A change of a device that leaves its transmit path alone and does not depend on it. -/
structure Mild (g : Dev → Dev) : Prop where
  linkUp : ∀ v, (g v).linkUp = v.linkUp
  busy : ∀ v, (g v).busy = v.busy
  hasQueue : ∀ v, (g v).hasQueue = v.hasQueue
  queue : ∀ v, (g v).queue = v.queue
  cap : ∀ v, (g v).cap = v.cap
  cur : ∀ v, (g v).cur = v.cur
  setb : ∀ v b, g { v with busy := b } = { g v with busy := b }
  setc : ∀ v c, g { v with cur := c } = { g v with cur := c }
  setq : ∀ v q, g { v with queue := q } = { g v with queue := q }

/-- One setter. -/
def Tune.one (d : DevId) (g : Dev → Dev) (hg : Mild g) : Tune where
  fn x v := if x = d then g v else v
  linkUp x v := by by_cases h : x = d <;> simp [h, hg.linkUp]
  busy x v := by by_cases h : x = d <;> simp [h, hg.busy]
  hasQueue x v := by by_cases h : x = d <;> simp [h, hg.hasQueue]
  queue x v := by by_cases h : x = d <;> simp [h, hg.queue]
  cap x v := by by_cases h : x = d <;> simp [h, hg.cap]
  cur x v := by by_cases h : x = d <;> simp [h, hg.cur]
  setb x v b := by
    by_cases h : x = d
    · simp only [h, if_true]; exact hg.setb v b
    · simp only [h, if_false]
  setc x v c := by
    by_cases h : x = d
    · simp only [h, if_true]; exact hg.setc v c
    · simp only [h, if_false]
  setq x v q := by
    by_cases h : x = d
    · simp only [h, if_true]; exact hg.setq v q
    · simp only [h, if_false]

theorem one_app (s : Sys) (d : DevId) (g : Dev → Dev) (hg : Mild g) :
    (Tune.one d g hg).app s = s.setDev d (g (s.dev d)) := by
  simp only [Tune.app, Tune.one, Sys.setDev]
  congr 1
  funext x
  by_cases h : x = d
  · subst h; simp
  · simp [h]

theorem setter_tune {E : Env} {op : Op} (h : Op.setter op = true) :
    ∃ T : Tune, (∀ s, step E s op = .ok (T.app s)) ∧ ∀ d, Op.readdress d op = false → ∀ v, (T.fn d v).addr = v.addr := by
  have mk : ∀ (d : DevId) (g : Dev → Dev), Mild g → (∀ s, step E s op = .ok (s.setDev d (g (s.dev d)))) →
      (∀ x, Op.readdress x op = false → x ≠ d ∨ ∀ v, (g v).addr = v.addr) →
      ∃ T : Tune, (∀ s, step E s op = .ok (T.app s)) ∧
        ∀ d, Op.readdress d op = false → ∀ v, (T.fn d v).addr = v.addr := by
    intro d g hg hs ha
    refine ⟨Tune.one d g hg, fun s => by rw [hs, one_app], ?_⟩
    intro x hx v
    by_cases hxd : x = d
    · rcases ha x hx with h | h
      · exact absurd hxd h
      · simp [Tune.one, hxd, h]
    · simp [Tune.one, hxd]
  cases op with
  | setAddress d a =>
    cases a with
    | other => cases h
    | mac m =>
      refine mk d (fun v => { v with addr := m }) (by constructor <;> (intros; rfl)) (fun s => rfl) ?_
      intro x hx
      left
      simp [Op.readdress] at hx
      exact fun hh => hx hh.symm
  | setSide d v =>
    exact mk d (fun w => { w with side := v }) (by constructor <;> (intros; rfl)) (fun s => rfl) (fun _ _ => .inr fun _ => rfl)
  | setRate d v =>
    exact mk d (fun w => { w with rate := v }) (by constructor <;> (intros; rfl)) (fun s => rfl) (fun _ _ => .inr fun _ => rfl)
  | setGap d v =>
    exact mk d (fun w => { w with gap := v }) (by constructor <;> (intros; rfl)) (fun s => rfl) (fun _ _ => .inr fun _ => rfl)
  | setMtu d v =>
    exact mk d (fun w => { w with mtu := v }) (by constructor <;> (intros; rfl)) (fun s => rfl) (fun _ _ => .inr fun _ => rfl)
  | setTxPower d v =>
    exact mk d (fun w => { w with txPower := v }) (by constructor <;> (intros; rfl)) (fun s => rfl) (fun _ _ => .inr fun _ => rfl)
  | setRxThreshold d v =>
    exact mk d (fun w => { w with rxThreshold := v }) (by constructor <;> (intros; rfl)) (fun s => rfl) (fun _ _ => .inr fun _ => rfl)
  | setRxGain d v =>
    exact mk d (fun w => { w with rxGain := v }) (by constructor <;> (intros; rfl)) (fun s => rfl) (fun _ _ => .inr fun _ => rfl)
  | setRxLoss d v =>
    exact mk d (fun w => { w with rxLoss := v }) (by constructor <;> (intros; rfl)) (fun s => rfl) (fun _ _ => .inr fun _ => rfl)
  | setPromisc d v =>
    exact mk d (fun w => { w with promiscCb := v }) (by constructor <;> (intros; rfl)) (fun s => rfl) (fun _ _ => .inr fun _ => rfl)
  | send => cases h
  | sendFrom => cases h
  | attach => cases h
  | detach => cases h
  | run => cases h
  | wait => cases h

theorem setters_tune {E : Env} {ops : List Op} (h : ∀ op ∈ ops, Op.setter op = true) :
    ∃ T : Tune, (∀ s, exec E s ops = .ok (T.app s)) ∧
      ∀ d, (∀ op ∈ ops, Op.readdress d op = false) → ∀ v, (T.fn d v).addr = v.addr := by
  induction ops with
  | nil => exact ⟨Tune.id, fun s => rfl, fun _ _ _ => rfl⟩
  | cons op ops ih =>
    obtain ⟨A, hA, hA'⟩ := setter_tune (E := E) (h op (by simp))
    obtain ⟨B, hB, hB'⟩ := ih (fun o ho => h o (by simp [ho]))
    refine ⟨A.comp B, fun s => ?_, ?_⟩
    · simp only [exec, hA, Outcome.ok_bind, hB]
      rfl
    · intro d hd v
      have h1 := hA' d (hd op (by simp)) v
      have h2 := hB' d (fun o ho => hd o (by simp [ho])) (A.fn d v)
      exact h2.trans h1

theorem sinks_atHook {E : Env} {ops : List Op} (h : Hook) (hh : ∀ i, h ≠ .txrx i) (hh' : ∀ c a i, h ≠ .txrxAt c a i) :
    (fun k t => sinksR E k (atHook h ops) t) = fun k t => if h = k then exec E t ops else .ok t := by
  funext k t
  induction ops generalizing t with
  | nil => simp [atHook, sinksR, sinksI, exec]
  | cons op ops ih =>
    rw [atHook, sinksR, sinksI]
    by_cases hk : h = k
    · subst hk
      have hp : h.point = h := by cases h <;> first | rfl | exact absurd rfl (hh' _ _ _)
      have hi : h.iters [] = [] := by cases h <;> first | rfl | exact absurd rfl (hh' _ _ _)
      rw [hp, if_pos rfl, if_pos rfl, hi, show sendI E (.conf op .nil) [] t = step E t op from conf_nil E t op]
      simp only [exec]
      congr 1
      funext u
      have := ih u
      rw [if_pos rfl] at this
      exact this
    · have hk' : h ≠ k.point := by
        intro he
        cases k with
        | txrxAt c a i => exact hh i he
        | _ => exact hk he
      rw [if_neg hk', if_neg hk]
      have := ih t
      rw [if_neg hk] at this
      exact this

theorem app_emit (T : Tune) (s : Sys) (e : Ev) : T.app (s.emit e) = (T.app s).emit e := rfl

theorem app_setDev (T : Tune) (s : Sys) (d : DevId) (v : Dev) : T.app (s.setDev d v) = (T.app s).setDev d (T.fn d v) := by
  simp only [Tune.app, Sys.setDev]
  congr 1
  funext x
  by_cases h : x = d
  · subst h; simp
  · simp [h]

theorem app_dev (T : Tune) (s : Sys) (d : DevId) : (T.app s).dev d = T.fn d (s.dev d) := rfl

/-- A sink that applies setters at one hook. -/
def tuneAt (T : Tune) (h : Hook) : Sinks := fun k t => if h = k then .ok (T.app t) else .ok t

theorem tuneAt_quiet {T : Tune} {h : Hook} (hh : ∀ i, h ≠ .txrx i) (hh' : ∀ c a i, h ≠ .txrxAt c a i) :
    QuietChan (tuneAt T h) :=
  ⟨fun i t => if_neg (hh i), fun c a i t => if_neg (hh' c a i)⟩

theorem start_tune {E : Env} {T : Tune} {s : Sys} {d : DevId} {f : Bytes} {dest : Addr} :
    transmitStartK E (tuneAt T .phyTxBegin) s d f dest = transmitStart E (T.app s) d f dest := by
  rw [← transmitStartK_plain]
  have h1 : T.app ((s.setDev d { s.dev d with busy := true, cur := some f }).emit (.phyTxBegin d f)) =
      ((T.app s).setDev d { (T.app s).dev d with busy := true, cur := some f }).emit (.phyTxBegin d f) := by
    have := T.setb d { s.dev d with cur := some f } true
    rw [T.setc] at this
    rw [app_emit, app_setDev, app_dev]
    rw [show T.fn d { s.dev d with busy := true, cur := some f } = _ from this]
  unfold transmitStartK
  simp only [chanTransmitK_plain E (tuneAt_quiet (T := T) (h := .phyTxBegin) (by simp) (by simp)),
    chanTransmitK_plain E quietChan_plain]
  unfold tuneAt
  simp only [h1, if_true, reduceCtorEq, if_false, Outcome.ok_bind]
  rw [app_dev, T.busy]

theorem start_other {E : Env} {T : Tune} {s : Sys} {d : DevId} {f : Bytes} {dest : Addr} {h : Hook}
    (h1 : h ≠ .phyTxBegin) (h2 : h ≠ .phyTxDrop) (h3 : ∀ i, h ≠ .txrx i) (h4 : ∀ c a i, h ≠ .txrxAt c a i) :
    transmitStartK E (tuneAt T h) s d f dest = transmitStart E s d f dest := by
  rw [← transmitStartK_plain]
  unfold transmitStartK
  simp only [chanTransmitK_plain E (tuneAt_quiet (T := T) h3 h4), chanTransmitK_plain E quietChan_plain]
  unfold tuneAt
  simp only [h1, h2, if_false]

theorem app_setq (T : Tune) (s : Sys) (d : DevId) (q : List Bytes) :
    T.app (s.setDev d { s.dev d with queue := q }) = (T.app s).setDev d { (T.app s).dev d with queue := q } := by
  rw [app_setDev, T.setq d (s.dev d) q, app_dev]

theorem sendStart_tune {E : Env} {T : Tune} {s : Sys} {d : DevId} {dest : Addr} {h : Hook}
    (hh : h = .dequeue ∨ h = .promiscSniffer ∨ h = .sniffer ∨ h = .phyTxBegin) (hb : (s.dev d).busy = false) :
    sendStartK E (tuneAt T h) s d dest = sendStartK E (fun _ t => .ok t) (T.app s) d dest := by
  unfold sendStartK
  rw [app_dev, T.busy, T.queue, hb]
  simp only [Bool.not_false, if_true]
  cases (s.dev d).queue with
  | nil => rfl
  | cons g rest =>
    simp only
    rw [← app_dev, ← app_setq]
    rcases hh with rfl | rfl | rfl | rfl
    · simp only [tuneAt, if_true, reduceCtorEq, if_false, Outcome.ok_bind]
      exact start_other (T := T) (h := .dequeue) (by simp) (by simp) (by simp) (by simp) |>.trans (transmitStartK_plain ..).symm
    · simp only [tuneAt, if_true, reduceCtorEq, if_false, Outcome.ok_bind]
      exact start_other (T := T) (h := .promiscSniffer) (by simp) (by simp) (by simp) (by simp) |>.trans (transmitStartK_plain ..).symm
    · simp only [tuneAt, if_true, reduceCtorEq, if_false, Outcome.ok_bind]
      exact start_other (T := T) (h := .sniffer) (by simp) (by simp) (by simp) (by simp) |>.trans (transmitStartK_plain ..).symm
    · simp only [tuneAt, if_true, reduceCtorEq, if_false, Outcome.ok_bind]
      exact start_tune (T := T) |>.trans (transmitStartK_plain ..).symm

theorem sendStart_other {E : Env} {T : Tune} {s : Sys} {d : DevId} {dest : Addr} {h : Hook}
    (h1 : h ≠ .dequeue) (h2 : h ≠ .promiscSniffer) (h3 : h ≠ .sniffer) (h4 : h ≠ .phyTxBegin) (h5 : h ≠ .phyTxDrop)
    (h6 : ∀ i, h ≠ .txrx i) (h7 : ∀ c a i, h ≠ .txrxAt c a i) :
    sendStartK E (tuneAt T h) s d dest = sendStartK E (fun _ t => .ok t) s d dest := by
  unfold sendStartK
  simp only [start_other h4 h5 h6 h7, transmitStartK_plain]
  simp only [tuneAt, h1, h2, h3, if_false]

/-- The part of `Send` after MacTx. -/
def sendRest (E : Env) (k : Sinks) (s1 : Sys) (d : DevId) (p : Bytes) (dest : Addr) (proto : UInt16) (f : Bytes) :
    Outcome Sys :=
  if !(s1.dev d).hasQueue then .fail .nullQueue
  else if (s1.dev d).queue.length < (s1.dev d).cap then
    (k .enqueue (s1.setDev d { s1.dev d with queue := (s1.dev d).queue ++ [f] })) >>= fun s2 =>
      sendStartK E k s2 d dest >>= fun s3 => .ok (s3.emit (.sendRet d p dest proto true f))
  else
    k .queueDrop s1 >>= fun s2 => k .macTxDrop (s2.emit (.macTxDrop d f)) >>= fun s3 =>
      .ok (s3.emit (.sendRet d p dest proto false f))

theorem sendK_up {E : Env} {k : Sinks} {s : Sys} {d : DevId} {p : Bytes} {m : Mac48} {proto : UInt16}
    (hl : (s.dev d).linkUp = true) :
    sendK E k s d p (.mac m) proto =
      (k .macTx (s.emit (.macTx d (addHeader E.fcs p (s.dev d).addr m proto))) >>= fun s1 =>
        sendRest E k s1 d p (.mac m) proto (addHeader E.fcs p (s.dev d).addr m proto)) := by
  unfold sendK
  rw [hl]
  rfl

theorem sendRest_tune {E : Env} {T : Tune} {s : Sys} {d : DevId} {p : Bytes} {dest : Addr} {proto : UInt16} {f : Bytes}
    {h : Hook} (hh : h = .enqueue ∨ h = .dequeue ∨ h = .promiscSniffer ∨ h = .sniffer ∨ h = .phyTxBegin)
    (hb : (s.dev d).busy = false) (hq : (s.dev d).queue.length < (s.dev d).cap) :
    sendRest E (tuneAt T h) s d p dest proto f = sendRest E (fun _ t => .ok t) (T.app s) d p dest proto f := by
  unfold sendRest
  rw [show ((T.app s).dev d).hasQueue = (s.dev d).hasQueue from T.hasQueue _ _,
    show ((T.app s).dev d).queue = (s.dev d).queue from T.queue _ _,
    show ((T.app s).dev d).cap = (s.dev d).cap from T.cap _ _, if_pos hq, if_pos hq, ← app_setq]
  congr 1
  by_cases he : h = .enqueue
  · subst he
    rw [show ∀ t, tuneAt T .enqueue .enqueue t = .ok (T.app t) from fun t => by simp [tuneAt], Outcome.ok_bind,
      Outcome.ok_bind, sendStart_other (T := T) (h := .enqueue) (by simp) (by simp) (by simp) (by simp) (by simp) (by simp) (by simp)]
  · rw [show ∀ t, tuneAt T h .enqueue t = .ok t from fun t => by simp [tuneAt, he], Outcome.ok_bind, Outcome.ok_bind,
      sendStart_tune (hh.resolve_left he) (by simp [Sys.setDev, hb])]

/-- Setters executed while a frame is sent by an idle device. -/
theorem send_tune {E : Env} {T : Tune} {s : Sys} {d : DevId} {p : Bytes} {m : Mac48} {proto : UInt16} {h : Hook}
    (hh : h = .macTx ∨ h = .enqueue ∨ h = .dequeue ∨ h = .promiscSniffer ∨ h = .sniffer ∨ h = .phyTxBegin)
    (hl : (s.dev d).linkUp = true) (hb : (s.dev d).busy = false) (hq : (s.dev d).queue.length < (s.dev d).cap)
    (ha : (T.fn d (s.dev d)).addr = (s.dev d).addr) :
    sendK E (tuneAt T h) s d p (.mac m) proto = send E (T.app s) d p (.mac m) proto := by
  rw [← sendK_plain, sendK_up hl, sendK_up (by rw [app_dev, T.linkUp, hl]), app_dev, ha]
  generalize addHeader E.fcs p (s.dev d).addr m proto = f
  by_cases hm : h = .macTx
  · subst hm
    rw [show tuneAt T .macTx .macTx (s.emit (.macTx d f)) = .ok ((T.app s).emit (.macTx d f)) from by simp [tuneAt, app_emit]]
    simp only [Outcome.ok_bind]
    unfold sendRest
    simp only [sendStart_other (T := T) (h := .macTx) (by simp) (by simp) (by simp) (by simp) (by simp) (by simp) (by simp)]
    simp only [tuneAt, reduceCtorEq, if_false]
  · rw [show tuneAt T h .macTx (s.emit (.macTx d f)) = .ok (s.emit (.macTx d f)) by simp [tuneAt, hm]]
    simp only [Outcome.ok_bind, ← app_emit]
    exact sendRest_tune (hh.resolve_left hm) hb hq

/-- The part of `TransmitComplete` after PhyTxEnd. -/
def completeRest (E : Env) (k : Sinks) (s2 : Sys) (d : DevId) (dest : Addr) : Outcome Sys :=
  if !(s2.dev d).hasQueue then .fail .nullQueue
  else
    match (s2.dev d).queue with
    | [] => .ok s2
    | p :: rest => do
      let s3 ← k .dequeue (s2.setDev d { s2.dev d with queue := rest })
      let s4 ← k .sniffer (s3.emit (.sniffer d p))
      let s5 ← k .promiscSniffer (s4.emit (.promiscSniffer d p))
      transmitStartK E k s5 d p dest

/-- The frame on the air is finished. -/
def finish (s : Sys) (d : DevId) (f : Bytes) : Sys := (s.setDev d { s.dev d with busy := false }).emit (.phyTxEnd d f)

/-- `m_currentPkt` is cleared. -/
def clearCur (s : Sys) (d : DevId) : Sys := s.setDev d { s.dev d with cur := none }

theorem transmitCompleteK_eq {E : Env} {k : Sinks} {s : Sys} {d : DevId} {dest : Addr} {f : Bytes}
    (hb : (s.dev d).busy = true) (hc : (s.dev d).cur = some f) :
    transmitCompleteK E k s d dest =
      (k .phyTxEnd (finish s d f) >>= fun s1 => completeRest E k (clearCur s1 d) d dest) := by
  unfold transmitCompleteK
  rw [if_neg (by simp [hb])]
  split
  · rename_i h; rw [hc] at h; cases h
  · rename_i f' h
    rw [hc] at h
    injection h with h
    subst h
    rfl

theorem completeRest_tune {E : Env} {T : Tune} {s : Sys} {d : DevId} {dest : Addr} {h : Hook}
    (hh : h = .dequeue ∨ h = .promiscSniffer ∨ h = .sniffer ∨ h = .phyTxBegin) (hq : (s.dev d).queue ≠ []) :
    completeRest E (tuneAt T h) s d dest = completeRest E (fun _ t => .ok t) (T.app s) d dest := by
  unfold completeRest
  rw [show ((T.app s).dev d).hasQueue = (s.dev d).hasQueue from T.hasQueue _ _,
    show ((T.app s).dev d).queue = (s.dev d).queue from T.queue _ _]
  congr 1
  cases hwq : (s.dev d).queue with
  | nil => exact absurd hwq hq
  | cons g rest =>
    simp only
    rw [← app_setq]
    rcases hh with rfl | rfl | rfl | rfl
    · simp only [tuneAt, if_true, reduceCtorEq, if_false, Outcome.ok_bind]
      exact start_other (T := T) (h := .dequeue) (by simp) (by simp) (by simp) (by simp) |>.trans (transmitStartK_plain ..).symm
    · simp only [tuneAt, if_true, reduceCtorEq, if_false, Outcome.ok_bind]
      exact start_other (T := T) (h := .promiscSniffer) (by simp) (by simp) (by simp) (by simp) |>.trans (transmitStartK_plain ..).symm
    · simp only [tuneAt, if_true, reduceCtorEq, if_false, Outcome.ok_bind]
      exact start_other (T := T) (h := .sniffer) (by simp) (by simp) (by simp) (by simp) |>.trans (transmitStartK_plain ..).symm
    · simp only [tuneAt, if_true, reduceCtorEq, if_false, Outcome.ok_bind]
      exact start_tune (T := T) |>.trans (transmitStartK_plain ..).symm

/-- Setters executed while a completion starts the next frame. -/
theorem complete_tune {E : Env} {T : Tune} {s : Sys} {d : DevId} {dest : Addr} {h : Hook}
    (hh : h = .phyTxEnd ∨ h = .dequeue ∨ h = .promiscSniffer ∨ h = .sniffer ∨ h = .phyTxBegin)
    (hq : h = .phyTxEnd ∨ (s.dev d).queue ≠ []) :
    transmitCompleteK E (tuneAt T h) s d dest = transmitComplete E (T.app s) d dest := by
  rw [← transmitCompleteK_plain]
  cases hb : (s.dev d).busy with
  | false =>
    unfold transmitCompleteK
    rw [if_pos (by simp [hb]), if_pos (by rw [app_dev, T.busy]; simp [hb])]
  | true =>
    cases hc : (s.dev d).cur with
    | none =>
      unfold transmitCompleteK
      rw [if_neg (by simp [hb]), if_neg (by rw [app_dev, T.busy]; simp [hb])]
      rw [app_dev, T.cur, hc]
    | some f =>
      rw [transmitCompleteK_eq hb hc, transmitCompleteK_eq (by rw [app_dev, T.busy, hb]) (by rw [app_dev, T.cur, hc])]
      have h0 : finish (T.app s) d f = T.app (finish s d f) := by
        unfold finish
        rw [app_emit, app_setDev, app_dev, T.setb d (s.dev d) false]
      have h1 : ∀ t : Sys, clearCur (T.app t) d = T.app (clearCur t d) := by
        intro t
        unfold clearCur
        rw [app_setDev, T.setc d (t.dev d) none, app_dev]
      by_cases he : h = .phyTxEnd
      · subst he
        rw [show ∀ t, tuneAt T .phyTxEnd .phyTxEnd t = .ok (T.app t) from fun t => by simp [tuneAt], Outcome.ok_bind,
          Outcome.ok_bind, h0]
        unfold completeRest
        simp only [start_other (T := T) (h := .phyTxEnd) (by simp) (by simp) (by simp) (by simp), transmitStartK_plain]
        simp only [tuneAt, reduceCtorEq, if_false]
      · rw [show ∀ t, tuneAt T h .phyTxEnd t = .ok t from fun t => by simp [tuneAt, he], Outcome.ok_bind, Outcome.ok_bind,
          h0, h1]
        exact completeRest_tune (hh.resolve_left he)
          (by simpa [clearCur, finish, Sys.setDev, Sys.emit] using hq.resolve_left he)

/-- Setters executed when a frame has arrived. -/
theorem receive_tune {E : Env} {T : Tune} {s : Sys} {d : DevId} {f : Bytes} {src : DevId} {rx : Power} (hne : src ≠ d) :
    receiveK E (tuneAt T .phyRxEnd) s d f src rx = receive E (T.app s) d f src rx := by
  rw [← receiveK_plain]
  unfold receiveK
  simp only [hne, if_false]
  rw [show ∀ t, tuneAt T .phyRxEnd .phyRxEnd t = .ok (T.app t) from fun t => by simp [tuneAt]]
  simp only [tuneAt, reduceCtorEq, if_false, Outcome.ok_bind, app_emit]
  rfl

/-! ### `Send` while connected code attaches and detaches -/

/-- Connected code that leaves the transmit paths of all devices alone. -/
def Still (k : Sinks) : Prop := ∀ h s s', k h s = .ok s' → ∀ x, PathKept (view s x) (view s' x)

theorem kept_setDev {s : Sys} {d : DevId} {v : Dev} (hb : v.busy = (s.dev d).busy) (hc : v.cur = (s.dev d).cur)
    (hq : v.queue = (s.dev d).queue) (hcap : v.cap = (s.dev d).cap) (x : DevId) :
    PathKept (view s x) (view (s.setDev d v) x) := by
  by_cases hx : x = d
  · subst hx
    rw [view_setDev_self]
    exact ⟨hb, hc, hq, hcap, rfl, rfl, rfl, rfl, rfl⟩
  · rw [view_setDev_other _ hx]; exact PathKept.refl _

theorem still_attach {k : Sinks} {s s' : Sys} {d : DevId} {c : ChanId} (hk : Still k) (h : attachK k s d c = .ok s')
    (x : DevId) : PathKept (view s x) (view s' x) := by
  have up : ∀ ch' : Chan, ((k .linkChange (((s.setChan c ch').setDev d
      { s.dev d with chan := some c, chanSlot := (s.chan c).link.length, linkUp := true }).emit (.linkChange d))) >>=
      fun s1 => .ok (s1.emit (.attachRet d c (s.chan c).link.length))) = .ok s' → PathKept (view s x) (view s' x) := by
    intro ch' h
    rw [Outcome.bind_eq_ok] at h
    obtain ⟨s1, h1, h2⟩ := h
    injection h2 with h2
    subst h2
    have e1 := kept_setDev (s := s.setChan c ch') (d := d)
      (v := { s.dev d with chan := some c, chanSlot := (s.chan c).link.length, linkUp := true }) rfl rfl rfl rfl x
    have e2 := hk _ _ _ h1 x
    rw [view_emit rfl rfl rfl rfl] at e2
    rw [view_emit rfl rfl rfl rfl]
    exact e1.trans e2
  unfold attachK at h
  simp only at h
  split at h
  · exact up _ h
  · split at h
    · cases h
    · split at h <;> exact up _ h

theorem still_detach {k : Sinks} {its : Iters} {s s' : Sys} {c : ChanId} {slot : Nat} (hk : Still k)
    (h : detachK k its s c slot = .ok s') (x : DevId) : PathKept (view s x) (view s' x) := by
  have base : ∀ s : Sys, baseDetachK k s c slot = .ok s' → PathKept (view s x) (view s' x) := by
    intro s h
    unfold baseDetachK at h
    split at h
    · injection h with h; subst h; exact .of_eq (view_emit rfl rfl rfl rfl)
    · rename_i d _
      split at h
      · injection h with h; subst h; exact .of_eq (view_emit rfl rfl rfl rfl)
      · rw [Outcome.bind_eq_ok] at h
        obtain ⟨s1, h1, h2⟩ := h
        injection h2 with h2
        subst h2
        have e1 := kept_setDev (s := s) (d := d) (v := { s.dev d with linkUp := false }) rfl rfl rfl rfl x
        have e2 := hk _ _ _ h1 x
        rw [view_emit rfl rfl rfl rfl] at e2
        rw [view_emit rfl rfl rfl rfl]
        exact e1.trans e2
  unfold detachK at h
  split at h
  · exact base s h
  · split at h
    · cases h
    · simp only at h
      split at h
      · cases h
      have := base _ h
      exact this

theorem still_conf {E : Env} {k : Sinks} {its : Iters} {s s' : Sys} {op : Op} (hop : Op.config op = true) (hk : Still k)
    (h : confK E k its s op = .ok s') (x : DevId) : PathKept (view s x) (view s' x) := by
  have setter : ∀ (d : DevId) (v : Dev), v.busy = (s.dev d).busy → v.cur = (s.dev d).cur →
      v.queue = (s.dev d).queue → v.cap = (s.dev d).cap → Outcome.ok (s.setDev d v) = .ok s' →
      PathKept (view s x) (view s' x) := by
    intro d v h1 h2 h3 h4 h5
    injection h5 with h5
    subst h5
    exact kept_setDev h1 h2 h3 h4 x
  cases op with
  | send d p dest proto => cases hop
  | run => cases hop
  | wait dt => cases hop
  | sendFrom d p src dest proto =>
    injection h with h; subst h; exact .of_eq (view_emit rfl rfl rfl rfl)
  | attach d c => exact still_attach hk h x
  | detach c slot => exact still_detach hk h x
  | setAddress d a =>
    cases a with
    | other => cases h
    | mac m => refine setter d _ ?_ ?_ ?_ ?_ h <;> rfl
  | setSide d v => refine setter d _ ?_ ?_ ?_ ?_ h <;> rfl
  | setRate d v => refine setter d _ ?_ ?_ ?_ ?_ h <;> rfl
  | setGap d v => refine setter d _ ?_ ?_ ?_ ?_ h <;> rfl
  | setMtu d v => refine setter d _ ?_ ?_ ?_ ?_ h <;> rfl
  | setTxPower d v => refine setter d _ ?_ ?_ ?_ ?_ h <;> rfl
  | setRxThreshold d v => refine setter d _ ?_ ?_ ?_ ?_ h <;> rfl
  | setRxGain d v => refine setter d _ ?_ ?_ ?_ ?_ h <;> rfl
  | setRxLoss d v => refine setter d _ ?_ ?_ ?_ ?_ h <;> rfl
  | setPromisc d v => refine setter d _ ?_ ?_ ?_ ?_ h <;> rfl

mutual
theorem quietCall_still {E : Env} : ∀ (c : Call) (its : Iters), quietCall c = true → ∀ s s', sendI E c its s = .ok s' →
    ∀ x, PathKept (view s x) (view s' x)
  | .mk .., _, h => by rw [quietCall] at h; cases h
  | .conf op sc, its, h => by
    rw [quietCall, Bool.and_eq_true] at h
    intro s s' hs
    rw [sendI] at hs
    exact still_conf h.1 (quiet_stillI sc its h.2) hs
/-- Connected code that makes no calls of `Send` leaves the transmit paths alone. -/
theorem quiet_stillI {E : Env} : ∀ (sc : Script) (its : Iters), quietScript sc = true →
    Still (fun k t => sinksI E k sc its t)
  | .nil, its, _ => by
    intro h s s' hs x
    simp only [sinksI] at hs
    injection hs with hs
    subst hs
    exact PathKept.refl _
  | .cons h' c rest, its, hq => by
    rw [quietScript, Bool.and_eq_true] at hq
    intro h s s' hs x
    simp only [sinksI] at hs
    split at hs
    · rw [Outcome.bind_eq_ok] at hs
      obtain ⟨s1, h1, h2⟩ := hs
      exact (quietCall_still c _ hq.1 s s1 h1 x).trans (quiet_stillI rest its hq.2 _ _ _ h2 x)
    · exact quiet_stillI rest its hq.2 _ _ _ hs x
end

theorem quiet_still {E : Env} (sc : Script) (h : quietScript sc = true) : Still (fun k t => sinksR E k sc t) :=
  quiet_stillI sc [] h

theorem deliverK_still {E : Env} {k : Sys → Outcome Sys} {s s' : Sys} {c : ChanId} {f : Bytes} {src dst : DevId} {t : Time}
    {b : Bool} (hk : ∀ s s', k s = .ok s' → ∀ x, PathKept (view s x) (view s' x))
    (h : deliverK E k s c f src dst t = .ok (s', b)) (x : DevId) : PathKept (view s x) (view s' x) := by
  unfold deliverK at h
  rw [Outcome.bind_eq_ok] at h
  obtain ⟨⟨s1, ok⟩, h1, h2⟩ := h
  have e1 : PathKept (view s x) (view s1 x) := .of_eq (view_deliver h1 x)
  cases ok with
  | false => injection h2 with h2; injection h2 with h2; subst h2; exact e1
  | true =>
    simp only [if_true] at h2
    rw [Outcome.bind_eq_ok] at h2
    obtain ⟨s2, h3, h4⟩ := h2
    injection h4 with h4
    injection h4 with h4
    subst h4
    exact e1.trans (hk _ _ h3 x)

theorem leoLoopK_still {E : Env} {k : Sinks} {c : ChanId} {g : Bool} {f : Bytes} {src : DevId} {t : Time} (hk : Still k)
    (n : Nat) : ∀ (i : Nat) (rest : List (Mac48 × DevId)) (s : Sys) (r : Bool) (s' : Sys) (b : Bool),
    leoLoopK E k c g f src t n i rest s r = .ok (s', b) → ∀ x, PathKept (view s x) (view s' x) := by
  induction n with
  | zero =>
    intro i rest s r s' b h x
    cases rest with
    | nil => injection h with h; injection h with h; subst h; exact PathKept.refl _
    | cons => cases h
  | succ n ih =>
    intro i rest s r s' b h x
    cases rest with
    | nil => injection h with h; injection h with h; subst h; exact PathKept.refl _
    | cons y rest =>
      obtain ⟨a, d⟩ := y
      rw [leoLoopK, Outcome.bind_eq_ok] at h
      obtain ⟨⟨s1, ok⟩, h1, h2⟩ := h
      exact (deliverK_still (hk _) h1 x).trans (ih _ _ _ _ _ _ h2 x)

theorem islLoopK_still {E : Env} {k : Sinks} {c : ChanId} {f : Bytes} {src : DevId} {slot : Nat} {t : Time} (hk : Still k)
    (n : Nat) : ∀ (i : Nat) (s s' : Sys),
    islLoopK E k c f src slot t n i s = .ok s' → ∀ x, PathKept (view s x) (view s' x) := by
  induction n with
  | zero =>
    intro i s s' h x
    rw [islLoopK] at h
    split at h
    · injection h with h; subst h; exact PathKept.refl _
    · cases h
  | succ n ih =>
    intro i s s' h x
    rw [islLoopK] at h
    split at h
    · injection h with h; subst h; exact PathKept.refl _
    · simp only at h
      split at h
      · exact ih _ _ _ h x
      · rw [Outcome.bind_eq_ok] at h
        obtain ⟨⟨s1, ok⟩, h1, h2⟩ := h
        exact (deliverK_still (hk _) h1 x).trans (ih _ _ _ h2 x)

theorem chanTransmitK_still {E : Env} {k : Sinks} {s s' : Sys} {c : ChanId} {f : Bytes} {slot : Nat} {dest : Addr}
    {t : Time} {b : Bool} (hk : Still k) (h : chanTransmitK E k s c f slot dest t = .ok (s', b)) (x : DevId) :
    PathKept (view s x) (view s' x) := by
  have stay : ∀ {r : Bool}, (Outcome.ok (s, r) : Outcome (Sys × Bool)) = .ok (s', b) → PathKept (view s x) (view s' x) := by
    intro r h; injection h with h; injection h with h; subst h; exact PathKept.refl _
  unfold chanTransmitK at h
  split at h
  · unfold leoTransmitK at h
    split at h
    · exact stay h
    · simp only at h
      split at h
      · cases h
      · split at h
        · exact leoLoopK_still hk _ _ _ _ _ _ _ h x
        · split at h
          · exact leoLoopK_still hk _ _ _ _ _ _ _ h x
          · exact stay h
  · unfold islTransmitK at h
    split at h
    · exact stay h
    · split at h
      · exact deliverK_still (hk _) h x
      · split at h
        · cases h
        · split at h
          · rw [Outcome.bind_eq_ok] at h
            obtain ⟨s1, h1, h2⟩ := h
            injection h2 with h2
            injection h2 with h2
            subst h2
            exact islLoopK_still hk _ _ _ _ h1 x
          · exact stay h

/-- A frame started while connected code leaves the transmit paths alone. -/
theorem start_still {E : Env} {k : Sinks} {s s' : Sys} {d : DevId} {f : Bytes} {dest : Addr} (hk : Still k)
    (h : transmitStartK E k s d f dest = .ok s') :
    begun d s'.log = begun d s.log ++ [f] ∧ accepted d s'.log = accepted d s.log ∧ (s'.dev d).busy = true ∧
      (s'.dev d).cur = some f ∧ (s'.dev d).queue = (s.dev d).queue := by
  unfold transmitStartK at h
  split at h
  · cases h
  · rw [Outcome.bind_eq_ok] at h
    obtain ⟨s1, h1, h2⟩ := h
    have e1 := hk _ _ _ h1 d
    rw [view_begin_self, view_setDev_self] at e1
    have fin : ∀ t : Sys, PathKept (view s1 d) ⟨t.dev d, (view s1 d).txc, accepted d t.log, begun d t.log, ended d t.log, phases d t.log⟩ →
        begun d t.log = begun d s.log ++ [f] ∧ accepted d t.log = accepted d s.log ∧ (t.dev d).busy = true ∧
          (t.dev d).cur = some f ∧ (t.dev d).queue = (s.dev d).queue := fun t e =>
      ⟨e.beg.trans e1.beg, e.acc.trans e1.acc, e.busy.trans e1.busy, e.cur.trans e1.cur, e.queue.trans e1.queue⟩
    simp only at h2
    split at h2
    · cases h2
    · rename_i c hc
      rw [Outcome.bind_eq_ok] at h2
      obtain ⟨⟨s3, ok⟩, h3, h4⟩ := h2
      have e3 := chanTransmitK_still hk h3 d
      have e3' : PathKept (view s1 d) ⟨s3.dev d, (view s1 d).txc, accepted d s3.log, begun d s3.log, ended d s3.log,
          phases d s3.log⟩ := by
        have e4 : view ((s1.schedule (E.txTime (s1.dev d).rate f.length + (s1.dev d).gap) (.txComplete d dest)).emit
            (.onAir d f dest)) d = view (s1.schedule (E.txTime (s1.dev d).rate f.length + (s1.dev d).gap)
              (.txComplete d dest)) d := view_emit rfl rfl rfl rfl
        rw [e4] at e3
        exact ⟨e3.busy, e3.cur, e3.queue, e3.cap, rfl, e3.acc, e3.beg, e3.fin, e3.ph⟩
      cases ok with
      | true =>
        injection h4 with h4
        subst h4
        exact fin _ e3'
      | false =>
        have e5 := hk _ _ _ h4 d
        rw [view_emit rfl rfl rfl rfl] at e5
        exact fin _ ⟨e5.busy.trans e3'.busy, e5.cur.trans e3'.cur, e5.queue.trans e3'.queue, e5.cap.trans e3'.cap, rfl,
          e5.acc.trans e3'.acc, e5.beg.trans e3'.beg, e5.fin.trans e3'.fin, e5.ph.trans e3'.ph⟩

/-- `Send` on an idle device with an empty queue while connected code leaves the transmit paths alone. -/
theorem send_still {E : Env} {k : Sinks} {s s' : Sys} {d : DevId} {p : Bytes} {m : Mac48} {proto : UInt16} (hk : Still k)
    (hl : (s.dev d).linkUp = true) (hb : (s.dev d).busy = false) (hq : (s.dev d).queue = []) (hcap : 0 < (s.dev d).cap)
    (h : sendK E k s d p (.mac m) proto = .ok s') :
    begun d s'.log = begun d s.log ++ [addHeader E.fcs p (s.dev d).addr m proto] ∧
      accepted d s'.log = accepted d s.log ++ [addHeader E.fcs p (s.dev d).addr m proto] ∧
      (s'.dev d).busy = true ∧ (s'.dev d).cur = some (addHeader E.fcs p (s.dev d).addr m proto) ∧
      (s'.dev d).queue = [] := by
  rw [sendK_up hl] at h
  generalize addHeader E.fcs p (s.dev d).addr m proto = f at *
  rw [Outcome.bind_eq_ok] at h
  obtain ⟨s1, h1, h2⟩ := h
  have e1 := hk _ _ _ h1 d
  rw [view_emit rfl rfl rfl rfl] at e1
  have hq1 : (s1.dev d).queue = [] := e1.queue.trans hq
  have hc1 : (s1.dev d).cap = (s.dev d).cap := e1.cap
  unfold sendRest at h2
  split at h2
  · cases h2
  · rw [if_pos (by rw [hq1, hc1]; exact hcap), Outcome.bind_eq_ok] at h2
    obtain ⟨s2, h3, h4⟩ := h2
    rw [Outcome.bind_eq_ok] at h4
    obtain ⟨s3, h5, h6⟩ := h4
    injection h6 with h6
    have e2 := hk _ _ _ h3 d
    rw [view_setDev_self] at e2
    have hb2 : (s2.dev d).busy = false := e2.busy.trans (e1.busy.trans hb)
    have hq2 : (s2.dev d).queue = [f] := by
      have := e2.queue
      simp only [hq1, List.nil_append] at this
      exact this
    unfold sendStartK at h5
    rw [if_pos (by simp [hb2])] at h5
    simp only [hq2] at h5
    rw [Outcome.bind_eq_ok] at h5
    obtain ⟨s4, h7, h5⟩ := h5
    rw [Outcome.bind_eq_ok] at h5
    obtain ⟨s5, h8, h5⟩ := h5
    rw [Outcome.bind_eq_ok] at h5
    obtain ⟨s6, h9, h5⟩ := h5
    have e3 := hk _ _ _ h7 d
    rw [view_setDev_self] at e3
    have e4 := hk _ _ _ h8 d
    rw [view_emit rfl rfl rfl rfl] at e4
    have e5 := hk _ _ _ h9 d
    rw [view_emit rfl rfl rfl rfl] at e5
    have e := (e3.trans e4).trans e5
    obtain ⟨g1, g2, g3, g4, g5⟩ := start_still hk h5
    have b1 : begun d s6.log = begun d s.log := e.beg.trans (e2.beg.trans e1.beg)
    have b2 : accepted d s6.log = accepted d s.log := e.acc.trans (e2.acc.trans e1.acc)
    have b3 : (s6.dev d).queue = [] := e.queue
    have hv := view_sendRet_self s3 d p (.mac m) proto f
    rw [h6] at hv
    subst h6
    refine ⟨?_, ?_, g3, g4, g5.trans b3⟩
    · have := congrArg View.beg hv
      exact this.trans (g1.trans (by rw [b1]))
    · have := congrArg View.acc hv
      refine this.trans ?_
      change accepted d s3.log ++ [f] = _
      rw [g2, b2]

/-- `Send` on a device whose link is down while connected code leaves the transmit paths alone. -/
theorem send_down {E : Env} {k : Sinks} {s s' : Sys} {d : DevId} {p : Bytes} {dest : Addr} {proto : UInt16} (hk : Still k)
    (hl : (s.dev d).linkUp = false) (h : sendK E k s d p dest proto = .ok s') :
    begun d s'.log = begun d s.log ∧ accepted d s'.log = accepted d s.log ∧ (s'.dev d).queue = (s.dev d).queue ∧
      s'.log.getLast? = some (s'.now, .sendRet d p dest proto false p) := by
  unfold sendK at h
  rw [if_pos (by simp [hl]), Outcome.bind_eq_ok] at h
  obtain ⟨s1, h1, h2⟩ := h
  injection h2 with h2
  subst h2
  have e1 := hk _ _ _ h1 d
  rw [view_emit rfl rfl rfl rfl] at e1
  have e2 : view (s1.emit (.sendRet d p dest proto false p)) d = view s1 d := view_emit rfl rfl rfl rfl
  refine ⟨?_, ?_, e1.queue, by simp [Sys.emit]⟩
  · exact (congrArg View.beg e2).trans e1.beg
  · exact (congrArg View.acc e2).trans e1.acc

end Verif
