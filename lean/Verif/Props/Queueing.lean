import Verif.Lemmas.Queueing
import Verif.Props.Device
/-!
# Which destination and when: the transmission schedule of a device (C09, C74, C75)
-/

namespace Verif
open Spec

/-! ## C09, the exact law -/

/-- **C09, what the code does instead**: every transmission is handed to the channel with the destination of the `Send`
that found the device idle and thereby began the busy period in which the frame is transmitted.  `o1` is the history
before that `Send`, `o2` what happened from then until the transmission began; the device was transmitting throughout. -/
theorem C09_destination_of_busy_period {E : Env} {s0 s : Sys} {ops : List Op} (h0 : Initial s0)
    (h : exec E s0 ops = .ok s) {t : Time} {d : DevId} {f : Bytes} {dest : Addr} (hm : (t, Ev.onAir d f dest) ∈ s.log) :
    ∃ o1 p proto o2 o3 sa sc, ops = o1 ++ Op.send d p dest proto :: (o2 ++ o3) ∧
      exec E s0 o1 = .ok sa ∧ ¬ Transmitting d sa.log ∧
      exec E s0 (o1 ++ Op.send d p dest proto :: o2) = .ok sc ∧ (t, Ev.onAir d f dest) ∈ sc.log ∧ t = sc.now ∧
      ∀ o4 o5 sb, o2 = o4 ++ o5 → exec E s0 (o1 ++ Op.send d p dest proto :: o4) = .ok sb → Transmitting d sb.log := by
  obtain ⟨p1, op, p2, s1, s2, rfl, h1, h2, h3, h4⟩ := log_entry_origin h0 h hm
  have hi := inv_exec (inv_initial h0) h1
  have hx := exec_snoc h1 h2
  obtain ⟨l, hl, htm⟩ := (clock_step hi.clock h2).2.log
  have hnew : newLog s1 s2 = l := by unfold newLog; rw [hl]; simp
  rw [hnew] at h4
  have hin : (t, Ev.onAir d f dest) ∈ s2.log := by rw [hl]; exact List.mem_append_right _ h4
  have hair : (f, dest) ∈ airs d l := by
    unfold airs proj
    rw [List.mem_filterMap]
    exact ⟨_, h4, by simp [airEv]⟩
  have hstep : ∃ t', txc d s2.pending = [(t', dest)] ∧ (s2.dev d).busy = true := by
    have same : ∀ {air}, airs d s2.log = airs d s1.log ++ air → airs d l = air := by
      intro air ha
      rw [hl] at ha
      unfold airs at ha ⊢
      rw [proj_append] at ha
      exact List.append_cancel_left ha
    cases devStep_step hi.dev h2 d with
    | keep acc _ _ _ _ _ kl => rw [same kl.air] at hair; cases hair
    | start g dest' _ _ kb' _ _ kt kl =>
      rw [same kl.air] at hair
      simp only [List.mem_singleton, Prod.mk.injEq] at hair
      rw [hair.2]; exact ⟨_, kt, kb'⟩
    | stop _ _ _ _ _ _ _ _ kl => rw [same kl.air] at hair; cases hair
    | next f' g dest' rest _ kb' _ _ _ _ _ kt' kl =>
      rw [same kl.air] at hair
      simp only [List.mem_singleton, Prod.mk.injEq] at hair
      rw [hair.2]; exact ⟨_, kt', kb'⟩
  obtain ⟨t', ht, hb⟩ := hstep
  obtain ⟨t'', dest'', ht', o1, p, proto, o2, sa, hq, ha, hidle, hall⟩ := opened_exec h0 hx d hb
  rw [ht] at ht'
  injection ht' with ht' _
  injection ht' with _ ht'
  subst ht'
  have tr : ∀ {o : List Op} {u : Sys}, exec E s0 o = .ok u → ((u.dev d).busy = true ↔ Transmitting d u.log) := fun hu =>
    busy_iff_transmitting (devInv_exec h0 hu d)
  refine ⟨o1, p, proto, o2, p2, sa, s2, ?_, ha, ?_, ?_, hin, htm _ h4, ?_⟩
  · rw [show p1 ++ op :: p2 = (p1 ++ [op]) ++ p2 by simp, hq]; simp
  · rw [← tr ha, hidle]; simp
  · rw [← hq]; exact hx
  · intro o4 o5 sb hs hsb
    rw [← tr hsb]
    exact hall o4 o5 sb hs hsb

/-- In the run of the counterexample two transmissions go to the destination of the first `Send`; the third, after the
device had been idle, to its own. -/
example : Demo.check Demo.env Demo.sys (c09Ops ++ [.send 0 [3] (.mac (Demo.mac 4)) 1])
    (fun s => (airs 0 s.log).map Prod.snd == [.mac (Demo.mac 2), .mac (Demo.mac 2), .mac (Demo.mac 4)]) = true := by
  decide +kernel

/-! ## C74 -/

/-- **C74**: as long as rate and interframe gap are not changed, the transmissions of a device begin exactly when those of
a single server do that serves all accepted frames in the order of their `Send` calls and is never idle while a frame
waits.  The schedule also tells when the waiting frames will begin, which is not in the past. -/
theorem C74_fifo_schedule {E : Env} {s0 s : Sys} {ops : List Op} (h0 : Initial s0) (h : exec E s0 ops = .ok s) {d : DevId}
    (hst : SteadyRate d ops) :
    ∃ Q, begunT d s.log ++ Q = fifo (occupation E (s0.dev d)) 0 (acceptedT d s.log) ∧
      Q.map Prod.snd = (s.dev d).queue ∧ ∀ q ∈ Q, s.now ≤ q.1 := by
  have hi := inv_exec (inv_initial h0) h
  obtain ⟨⟨A, Q, hA, hQ, hB, hbusy, hidle⟩, hpast⟩ := onTime_exec (w := occupation E (s0.dev d)) ops hst (fun _ => rfl)
    (inv_initial h0) (onTime_initial h0) h
  refine ⟨fifo (occupation E (s0.dev d)) (freeAfter (occupation E (s0.dev d)) 0 A) Q, ?_, ?_, ?_⟩
  · rw [hA, fifo_append, hB]
  · rw [fifo_frames, hQ]
  · intro q hq
    cases hb : (s.dev d).busy with
    | true =>
      obtain ⟨dest, ht⟩ := hbusy hb
      have hmem : (freeAfter (occupation E (s0.dev d)) 0 A, dest) ∈ txc d s.pending := by rw [ht]; simp
      unfold txc at hmem
      obtain ⟨p, hp, he⟩ := List.mem_filterMap.mp hmem
      have h1 := hi.clock.future p hp
      have h2 := fifo_ge _ _ _ q hq
      split at he
      · split at he
        · injection he with he
          injection he with he _
          omega
        · cases he
      · cases he
    | false =>
      have := ((hi.dev d).ready hb).2.1
      rw [← hQ, List.map_eq_nil_iff] at this
      subst this
      cases hq

/-- Three frames, the second and third queued, with interframe gap 0 and 3 time units for every frame: they begin at
0, 3 and 6 in one run; a frame sent later to the idle device begins at once. -/
example : Demo.check { Demo.env with txTime := fun _ _ => 3 } Demo.sys
    [.attach 0 1, .attach 1 1, .send 0 [1] (.mac (Demo.mac 2)) 1, .send 0 [2] (.mac (Demo.mac 2)) 1, .wait 1,
     .send 0 [3] (.mac (Demo.mac 2)) 1, .run, .run, .run, .run, .run, .run, .wait 5, .send 0 [4] (.mac (Demo.mac 2)) 1]
    (fun s => (begunT 0 s.log).map Prod.fst == [0, 3, 6, s.now] && s.now != 9) = true := by decide +kernel

/-- Two transmissions of a device never overlap, and the air time of everything transmitted in between fits in between: no
device ever sends faster than its rate. -/
theorem C74_rate_is_kept {E : Env} {s0 s : Sys} {ops : List Op} (h0 : Initial s0) (h : exec E s0 ops = .ok s) {d : DevId}
    (hst : SteadyRate d ops) {l1 m l2 : List (Time × Bytes)} {a b : Time × Bytes}
    (hb : begunT d s.log = l1 ++ a :: (m ++ b :: l2)) :
    a.1 + load (occupation E (s0.dev d)) ((a :: m).map Prod.snd) ≤ b.1 := by
  obtain ⟨Q, hQ, _⟩ := C74_fifo_schedule h0 h hst
  have hc := fifo_steps (occupation E (s0.dev d)) 0 (acceptedT d s.log)
  rw [← hQ, hb, List.append_assoc, List.cons_append, List.append_assoc, List.cons_append] at hc
  exact chain_load _ m (chain_right hc)

/-! ## C75 -/

/-- **C75**: an accepted frame begins no later than its `Send` plus the air time of the frames accepted directly before
it, of which at most as many count as the queue has places. -/
theorem C75_bounded_wait {E : Env} {s0 s : Sys} {ops : List Op} (h0 : Initial s0) (h : exec E s0 ops = .ok s) {d : DevId}
    (hst : SteadyRate d ops) {A1 A2 : List (Time × Bytes)} {t : Time} {f : Bytes} (ha : acceptedT d s.log = A1 ++ (t, f) :: A2)
    {b : Time} {f' : Bytes} (hb : (begunT d s.log)[A1.length]? = some (b, f')) :
    f' = f ∧ t ≤ b ∧ b ≤ t + load (occupation E (s0.dev d)) (lastN (s0.dev d).cap (A1.map Prod.snd)) := by
  obtain ⟨Q, hQ, _⟩ := C74_fifo_schedule h0 h hst
  have hp := prompt_exec (w := occupation E (s0.dev d)) (cap := (s0.dev d).cap) ops hst (fun _ => rfl) rfl (inv_initial h0)
    (onTime_initial h0) ⟨by rw [h0.log]; exact .nil, by rw [h0.log]; intro e he; cases he⟩
    (by rw [h0.log]; intro A1 x A2 hA; cases A1 <;> cases hA) h
  have hval : (begunT d s.log ++ Q)[A1.length]? = some (b, f') := by
    rw [List.getElem?_append_left (List.getElem?_eq_some_iff.mp hb).1]; exact hb
  rw [hQ, ha, fifo_append, List.getElem?_append_right (by rw [fifo_length]; exact Nat.le_refl _), fifo_length, Nat.sub_self] at hval
  simp only [fifo, List.getElem?_cons_zero, Option.some.injEq, Prod.mk.injEq] at hval
  obtain ⟨rfl, rfl⟩ := hval
  have := hp A1 (t, f) A2 ha
  refine ⟨rfl, by omega, ?_⟩
  unfold lastN
  rw [List.length_map]
  exact this

theorem load_bound {w : Bytes → Time} {W : Time} : ∀ {l : List Bytes}, (∀ x ∈ l, w x ≤ W) → load w l ≤ l.length * W
  | [], _ => by simp [load]
  | a :: l, h => by
    have h1 := h a (by simp)
    have h2 := load_bound (l := l) fun x hx => h x (by simp [hx])
    simp only [load, List.map_cons, List.sum_cons, List.length_cons] at h2 ⊢
    rw [Nat.succ_mul]
    omega

/-- With a bound on the air time of single frames: no frame waits longer than the length of the queue times this bound. -/
theorem C75_worst_case {E : Env} {s0 s : Sys} {ops : List Op} (h0 : Initial s0) (h : exec E s0 ops = .ok s) {d : DevId}
    (hst : SteadyRate d ops) {W : Time} (hW : ∀ x ∈ accepted d s.log, occupation E (s0.dev d) x ≤ W)
    {i : Nat} {t b : Time} {f f' : Bytes} (ha : (acceptedT d s.log)[i]? = some (t, f))
    (hb : (begunT d s.log)[i]? = some (b, f')) : f' = f ∧ t ≤ b ∧ b ≤ t + (s0.dev d).cap * W := by
  obtain ⟨hi, he⟩ := List.getElem?_eq_some_iff.mp ha
  have hsplit : acceptedT d s.log = (acceptedT d s.log).take i ++ (t, f) :: (acceptedT d s.log).drop (i + 1) := by
    rw [← he, List.getElem_cons_drop, List.take_append_drop]
  have hl : ((acceptedT d s.log).take i).length = i := by rw [List.length_take]; omega
  obtain ⟨h1, h2, h3⟩ := C75_bounded_wait h0 h hst hsplit (by rw [hl]; exact hb)
  refine ⟨h1, h2, Nat.le_trans h3 (Nat.add_le_add_left ?_ _)⟩
  refine Nat.le_trans (load_bound (W := W) ?_) (Nat.mul_le_mul_right _ ?_)
  · intro x hx
    refine hW x ?_
    rw [← acceptedT_frames]
    obtain ⟨y, hy, rfl⟩ := List.mem_map.mp (List.mem_of_mem_drop hx)
    exact List.mem_map_of_mem (List.mem_of_mem_take hy)
  · unfold lastN
    rw [List.length_drop]
    omega

/-- The bound is reached: a queue with two places, three frames sent at once with 3 time units each. -/
example : Demo.check { Demo.env with txTime := fun _ _ => 3 } Demo.sys
    [.attach 0 1, .attach 1 1, .send 0 [1] (.mac (Demo.mac 2)) 1, .send 0 [2] (.mac (Demo.mac 2)) 1,
     .send 0 [3] (.mac (Demo.mac 2)) 1, .run, .run, .run, .run, .run, .run]
    (fun s => (acceptedT 0 s.log).map Prod.fst == [0, 0, 0] && (begunT 0 s.log).map Prod.fst == [0, 3, 6] &&
      (s.dev 0).cap == 2) = true := by decide +kernel

/-! ## C06, the capacity -/

/-- **C06.** At any time the queue of a device holds at most as many frames as it has room for, which is what it was
at the start. -/
theorem C06_queue_within_capacity {E : Env} {s0 s : Sys} {ops : List Op} (h0 : Initial s0)
    (h : exec E s0 ops = .ok s) (d : DevId) :
    (s.dev d).queue.length ≤ (s0.dev d).cap ∧ (s.dev d).cap = (s0.dev d).cap := by
  have hc : (s.dev d).cap = (s0.dev d).cap :=
    exec_induct (P := fun x => (x.dev d).cap = (s0.dev d).cap) (fun _ _ _ hP hs => (cap_step hs d).trans hP) rfl h
  exact ⟨hc ▸ (devInv_exec h0 h d).cap, hc⟩

/-- The bound is attained. -/
example : Demo.check Demo.env Demo.sys
    [.attach 0 0, .send 0 [1] (.mac (Demo.mac 2)) 1, .send 0 [2] (.mac (Demo.mac 2)) 1,
     .send 0 [3] (.mac (Demo.mac 2)) 1, .send 0 [4] (.mac (Demo.mac 2)) 1]
    (fun s => (s.dev 0).queue.length == 2 && (Demo.sys.dev 0).cap == 2) = true := by decide +kernel

end Verif
