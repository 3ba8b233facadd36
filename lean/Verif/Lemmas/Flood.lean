import Verif.Lemmas.Relay
import Verif.Lemmas.NetDrain
import Verif.Spec.Flood
/-! Forwarding with a hop limit: a quantity that every event makes smaller. -/

namespace Verif
open Spec

/-! ### The code above -/

/-- What the code above does when a callback was called last. -/
def floodReact (E : Env) (R : Flooder) (t : Sys) : Outcome Sys :=
  match t.log.getLast? with
  | some (_, .rxCallback x p proto sa) => sendAll E (R t x p proto sa) t
  | _ => .ok t

theorem floodSink_eq (E : Env) (R : Flooder) :
    floodSink E R = fun h t => if h = .rxCallback then floodReact E R t else .ok t := by
  funext h t
  cases h <;> rfl

theorem floodReact_other {E : Env} {R : Flooder} (t : Sys) (e : Ev) (he : ∀ d p q a, e ≠ .rxCallback d p q a) :
    floodReact E R (t.emit e) = .ok (t.emit e) := by
  unfold floodReact
  simp only [Sys.emit, List.getLast?_append, List.getLast?_singleton, Option.some_or]
  split
  · rename_i _ x p proto sa hh
    injection hh with hh; injection hh with _ hh
    exact absurd hh (he _ _ _ _)
  · rfl

theorem runK_flood {E : Env} {R : Flooder} {s : Sys} :
    runK E (floodSink E R) s = match s.pending with
      | ⟨_, .receive ..⟩ :: _ => run E s >>= floodReact E R
      | _ => run E s := by
  rw [floodSink_eq]
  exact runK_after floodReact_other

/-- After a reception the code above is given the packet in the frame, or is not called. -/
theorem floodReact_receive {E : Env} {R : Flooder} {s s' : Sys} {d : DevId} {f : Bytes} {src : DevId} {rx : Power}
    (h : receive E s d f src rx = .ok s') :
    floodReact E R s' = .ok s' ∨ ∃ p proto a b, decode E.fcs f = .ok (.good p proto a b) ∧
      floodReact E R s' = sendAll E (R s' d p proto a) s' := by
  have ho := @floodReact_other E R
  unfold receive at h
  simp only at h
  split at h
  · injection h with h; subst h; left; exact ho _ _ (by intros; simp)
  · split at h
    · injection h with h; subst h; left; exact ho _ _ (by intros; simp)
    · split at h
      · injection h with h; subst h; left; exact ho _ _ (by intros; simp)
      · cases hd : decode E.fcs f with
        | fail e => rw [hd] at h; cases h
        | ok r =>
          rw [hd] at h
          simp only [Outcome.ok_bind] at h
          cases r with
          | badFcs rest => injection h with h; subst h; left; exact ho _ _ (by intros; simp)
          | good p proto a b =>
            simp only at h
            by_cases hty : packetType b (s.dev d).addr = .otherHost
            · left
              cases hp : (s.dev d).promiscCb <;> simp [hty, Sys.emit, hp] at h <;> subst h <;> simp [floodReact]
            · right
              cases hp : (s.dev d).promiscCb <;> cases hr : (s.dev d).rxCb <;> simp [hty, Sys.emit, hp, hr] at h <;>
                exact ⟨p, proto, a, b, rfl, by subst h; simp [floodReact]⟩

/-! ### The quantity -/

section
variable (hops : Bytes → Nat) (N B : Nat) (E : Env)

/-- The cost of packets with fewer hops. -/
def below : Nat → Nat
  | 0 => 0
  | k + 1 => floodCost N B k

theorem floodCost_eq (k : Nat) : floodCost N B k = 1 + N * (1 + B * below N B k) := by
  cases k <;> simp [floodCost, below]

theorem floodCost_le (k : Nat) : floodCost N B k ≤ floodCost N B (k + 1) := by
  induction k with
  | zero =>
    simp only [floodCost]
    exact Nat.add_le_add_left (Nat.le_mul_of_pos_right _ (by omega)) _
  | succ k ih =>
    rw [floodCost, floodCost]
    exact Nat.add_le_add_left (Nat.mul_le_mul_left _ (Nat.add_le_add_left (Nat.mul_le_mul_left _ ih) _)) _

theorem floodCost_mono {i j : Nat} (h : i ≤ j) : floodCost N B i ≤ floodCost N B j := by
  induction h with
  | refl => exact Nat.le_refl _
  | step _ ih => exact Nat.le_trans ih (floodCost_le N B _)

theorem floodCost_lt {i j : Nat} (h : i < j) : floodCost N B i ≤ below N B j := by
  cases j with
  | zero => omega
  | succ j => exact floodCost_mono N B (by omega)

/-- The number of hops of the packet in a frame. -/
def frameHops (f : Bytes) : Nat :=
  match decode E.fcs f with
  | .ok (.good p _ _ _) => hops p
  | _ => 0

def queueCost (q : List Bytes) : Nat := (q.map fun f => floodCost N B (frameHops hops E f)).sum

def weight (q : DevId → List Bytes) (p : Pending) : Nat :=
  match p.act with
  | .txComplete d _ => 1 + queueCost hops N B E (q d)
  | .receive _ f _ _ => 1 + B * below N B (frameHops hops E f)

def phi (q : DevId → List Bytes) (ps : List Pending) : Nat := (ps.map (weight hops N B E q)).sum

/-- How many events can still follow from what is pending and queued. -/
def potential (s : Sys) : Nat := phi hops N B E (fun d => (s.dev d).queue) s.pending

variable {hops N B E}

theorem phi_perm {q : DevId → List Bytes} {a b : List Pending} (h : a.Perm b) : phi hops N B E q a = phi hops N B E q b :=
  (h.map _).sum_eq

theorem phi_cons {q : DevId → List Bytes} {p : Pending} {ps : List Pending} :
    phi hops N B E q (p :: ps) = weight hops N B E q p + phi hops N B E q ps := by simp [phi]

theorem phi_append {q : DevId → List Bytes} {a b : List Pending} :
    phi hops N B E q (a ++ b) = phi hops N B E q a + phi hops N B E q b := by simp [phi]

theorem txc_cons_self {d : DevId} {t : Time} {dest : Addr} {ps : List Pending} :
    txc d (⟨t, .txComplete d dest⟩ :: ps) = (t, dest) :: txc d ps := by simp [txc]

theorem txc_cons_other {d d' : DevId} (h : d' ≠ d) {t : Time} {dest : Addr} {ps : List Pending} :
    txc d (⟨t, .txComplete d' dest⟩ :: ps) = txc d ps := by simp [txc, h]

theorem txc_cons_recv {d x : DevId} {f : Bytes} {src : DevId} {rx : Power} {t : Time} {ps : List Pending} :
    txc d (⟨t, .receive x f src rx⟩ :: ps) = txc d ps := by simp [txc]

/-- The queue of a device counts as often as it has completions pending. -/
theorem phi_queue {q q' : DevId → List Bytes} {d : DevId} (h : ∀ x, x ≠ d → q' x = q x) (ps : List Pending) :
    phi hops N B E q' ps + (txc d ps).length * queueCost hops N B E (q d) =
      phi hops N B E q ps + (txc d ps).length * queueCost hops N B E (q' d) := by
  induction ps with
  | nil => simp [phi, txc]
  | cons p ps ih =>
    obtain ⟨t, a⟩ := p
    rw [phi_cons, phi_cons]
    cases a with
    | receive x f src rx => rw [txc_cons_recv]; simp only [weight]; omega
    | txComplete d' dest =>
      by_cases hd : d' = d
      · subst hd
        rw [txc_cons_self, List.length_cons, Nat.add_mul, Nat.add_mul]
        simp only [weight]
        omega
      · rw [txc_cons_other hd]
        simp only [weight, h d' hd]
        omega

theorem queueCost_append {a b : List Bytes} :
    queueCost hops N B E (a ++ b) = queueCost hops N B E a + queueCost hops N B E b := by simp [queueCost]

theorem queueCost_cons {f : Bytes} {b : List Bytes} :
    queueCost hops N B E (f :: b) = floodCost N B (frameHops hops E f) + queueCost hops N B E b := by simp [queueCost]

theorem phi_recvs {q : DevId → List Bytes} {now : Time} {f : Bytes} {src : DevId} (rs : List Recv) :
    phi hops N B E q (rs.map (Recv.pend now f src)) = rs.length * (1 + B * below N B (frameHops hops E f)) := by
  induction rs with
  | nil => simp [phi]
  | cons r rs ih => rw [List.map_cons, phi_cons, ih, List.length_cons, Nat.add_mul]; simp only [weight, Recv.pend]; omega

theorem potential_start {t s3 : Sys} {d : DevId} {f : Bytes} {dest : Addr} (hN : Bounded N t)
    (h : transmitStart E t d f dest = .ok s3) :
    potential hops N B E s3 ≤ potential hops N B E t + queueCost hops N B E (t.dev d).queue + floodCost N B (frameHops hops E f) ∧
      s3.chan = t.chan := by
  obtain ⟨_, c, src, rs, b, _, _, _, h4, haud, _⟩ := transmitStart_aud h
  have hl : rs.length ≤ N := by
    rw [haud]
    exact Nat.le_trans (List.length_filterMap_le _ _) (audience_length hN _ _ _)
  have hq : (fun x => (s3.dev x).queue) = fun x => (t.dev x).queue := by
    funext x; rw [h4]; by_cases hx : x = d <;> simp [txState, hx]
  refine ⟨?_, by rw [h4]; rfl⟩
  unfold potential
  rw [hq]
  have hp : s3.pending.Perm (rs.map (Recv.pend t.now f src) ++
      ⟨t.now + (E.txTime (t.dev d).rate f.length + (t.dev d).gap), .txComplete d dest⟩ :: t.pending) := by
    rw [h4]
    exact (insertAll_perm _ _).trans (List.Perm.append_left _ (insertPending_perm _ _))
  rw [phi_perm hp, phi_append, phi_cons, phi_recvs, floodCost_eq]
  have := Nat.mul_le_mul_right (1 + B * below N B (frameHops hops E f)) hl
  simp only [weight]
  omega

theorem frameHops_add {p : Bytes} {a b : Mac48} {proto : UInt16} (h : p.length ≤ 1492) :
    frameHops hops E (addHeader E.fcs p a b proto) = hops p := by
  unfold frameHops
  rw [decode_addHeader, if_pos (by omega)]

theorem potential_send {s s' : Sys} {d : DevId} {p : Bytes} {dest : Addr} {proto : UInt16} (hN : Bounded N s) (hi : ∀ x, DevInv s x)
    (hlen : p.length ≤ 1492) (h : send E s d p dest proto = .ok s') :
    potential hops N B E s' ≤ potential hops N B E s + floodCost N B (hops p) ∧ s'.chan = s.chan := by
  rcases send_ok h with ⟨_, rfl⟩ | ⟨_, _, m, _, f, hf, ⟨_, rfl⟩ | ⟨_, hb, rfl⟩ | ⟨_, hb, g, rest, s3, hg, hts, rfl⟩⟩
  · exact ⟨Nat.le_add_right _ _, rfl⟩
  · exact ⟨Nat.le_add_right _ _, rfl⟩
  · refine ⟨?_, rfl⟩
    obtain ⟨_, τ, dst, _, htx⟩ := (hi d).busy hb
    have := phi_queue (hops := hops) (N := N) (B := B) (E := E) (q := fun x => (s.dev x).queue)
      (q' := fun x => (if x = d then { s.dev d with queue := (s.dev d).queue ++ [f] } else s.dev x).queue) (d := d)
      (fun x hx => by simp [hx]) s.pending
    have e : queueCost hops N B E [f] = floodCost N B (hops p) := by
      rw [queueCost_cons, hf, frameHops_add hlen]; simp [queueCost]
    rw [htx] at this
    simp only [List.length_singleton, Nat.one_mul, if_true, queueCost_append, e] at this
    unfold potential
    simp only
    omega
  · have hq := ((hi d).ready hb).2.1
    rw [hq] at hg
    injection hg with h1 h2
    subst h1; subst h2
    obtain ⟨k1, k2⟩ := (fun t (ht : transmitStart E t d f dest = .ok s3) (hh : Bounded N t) =>
      potential_start (hops := hops) (B := B) hh ht) _ hts hN
    refine ⟨?_, k2⟩
    have e : (fun x => (if x = d then { s.dev d with queue := [] } else s.dev x).queue) = fun x => (s.dev x).queue := by
      funext x; by_cases hx : x = d
      · subst hx; simp [hq]
      · simp [hx]
    have e2 : queueCost hops N B E [] = 0 := rfl
    simp only [potential, e, if_true, e2, hf, frameHops_add hlen] at k1
    simp only [potential]
    omega

theorem potential_sendAll {D : Nat} (l : List (DevId × Bytes × Addr × UInt16)) : ∀ {s : Sys}, Fit E s → Bounded N s →
    (∀ e ∈ l, floodCost N B (hops e.2.1) ≤ D ∧ e.2.1.length ≤ 1492 ∧ e.2.2.1 ≠ .other) →
    ∃ s' ops, sendAll E l s = .ok s' ∧ Fit E s' ∧ Bounded N s' ∧ potential hops N B E s' ≤ potential hops N B E s + l.length * D ∧
      (∀ op ∈ ops, op = .run ∨ ∃ d p dest proto, op = .send d p dest proto) ∧ ProperRun E s ops ∧ exec E s ops = .ok s' := by
  induction l with
  | nil =>
    intro s hf hN _
    exact ⟨s, [], rfl, hf, hN, Nat.le_add_right _ _, by simp, by intro o1 op o2 s1 ho; simp at ho, rfl⟩
  | cons e l ih =>
    intro s hf hN hl
    obtain ⟨d, p, dest, proto⟩ := e
    obtain ⟨h1, h2, h3⟩ := hl _ List.mem_cons_self
    simp only at h1 h2 h3
    have hpr : Proper s (.send d p dest proto) := ⟨True.intro, h3, (by omega : p.length ≤ 65527)⟩
    obtain ⟨u, hu⟩ := fit_progress hf hpr
    have hfu := fit_step hf hpr hu
    simp only [step] at hu
    obtain ⟨k1, k2⟩ := potential_send (hops := hops) (B := B) hN hf.inv.dev h2 hu
    obtain ⟨s', ops, g1, g2, g3, g4, g5, g6, g7⟩ := ih hfu (by intro c; rw [k2]; exact hN c) fun e he => hl e (List.mem_cons_of_mem _ he)
    have hex : exec E s [.send d p dest proto] = .ok u := by simp [exec, step, hu]
    refine ⟨s', [.send d p dest proto] ++ ops, by rw [sendAll, hu, Outcome.ok_bind, g1], g2, g3, ?_, ?_,
      properRun_append ?_ hex g6, by rw [exec_append, hex]; exact g7⟩
    · rw [List.length_cons, Nat.add_mul]
      omega
    · intro op hop
      rcases List.mem_append.mp hop with hop | hop
      · exact Or.inr ⟨_, _, _, _, List.mem_singleton.mp hop⟩
      · exact g5 op hop
    · intro o1 op o2 s1 ho hx
      cases o1 with
      | nil =>
        simp only [List.nil_append, List.cons.injEq] at ho
        obtain ⟨rfl, _⟩ := ho
        have : s = s1 := by simpa [exec] using hx
        exact this ▸ hpr
      | cons a o1 => simp at ho

theorem potential_run {s s' : Sys} {p : Pending} {ps : List Pending} (hp : s.pending = p :: ps) (hN : Bounded N s) (hi : ∀ x, DevInv s x)
    (h : run E s = .ok s') :
    s'.chan = s.chan ∧ match p.act with
      | .txComplete .. => potential hops N B E s' + 1 ≤ potential hops N B E s
      | .receive _ f _ _ => potential hops N B E s' + 1 + B * below N B (frameHops hops E f) ≤ potential hops N B E s := by
  unfold run at h
  rw [hp] at h
  obtain ⟨t, a⟩ := p
  have hpot : potential hops N B E s = weight hops N B E (fun d => (s.dev d).queue) ⟨t, a⟩ +
      phi hops N B E (fun d => (s.dev d).queue) ps := by unfold potential; rw [hp, phi_cons]
  cases a with
  | receive d f src rx =>
    simp only [dispatch] at h
    obtain ⟨l, _, rfl⟩ := receive_ok h
    refine ⟨rfl, ?_⟩
    simp only [weight] at hpot
    simp only [potential] at hpot ⊢
    omega
  | txComplete d dest =>
    simp only [dispatch] at h
    obtain ⟨hb, _, f, _, hcase⟩ := transmitComplete_ok h
    simp only at hb
    obtain ⟨_, τ, dst, _, htx⟩ := (hi d).busy hb
    rw [hp, txc_cons_self] at htx
    injection htx with _ htx
    simp only [weight] at hpot
    rcases hcase with ⟨hq, rfl⟩ | ⟨g, rest, hq, hts⟩
    · refine ⟨rfl, ?_⟩
      have e : (fun x => (if x = d then { s.dev d with busy := false, cur := none } else s.dev x).queue) = fun x => (s.dev x).queue := by
        funext x; by_cases hx : x = d <;> simp [hx]
      simp only [potential, e] at hpot ⊢
      omega
    · simp only at hq
      obtain ⟨k1, k2⟩ := (fun t (ht : transmitStart E t d g dest = .ok s') (hh : Bounded N t) =>
        potential_start (hops := hops) (B := B) hh ht) _ hts hN
      refine ⟨k2, ?_⟩
      have := phi_queue (hops := hops) (N := N) (B := B) (E := E) (q := fun x => (s.dev x).queue)
        (q' := fun x => (if x = d then { s.dev d with busy := false, cur := none, queue := rest } else s.dev x).queue) (d := d)
        (fun x hx => by simp [hx]) ps
      rw [htx] at this
      rw [hq, queueCost_cons] at hpot
      simp only [List.length_nil, Nat.zero_mul, Nat.add_zero] at this
      simp only [potential, if_true, this] at hpot k1 ⊢
      omega

theorem flood_step {R : Flooder} (hR : HopLimited hops B R) {s : Sys} (hf : Fit E s) (hN : Bounded N s) (hne : s.pending ≠ []) :
    ∃ s' ops, runK E (floodSink E R) s = .ok s' ∧ Fit E s' ∧ Bounded N s' ∧ potential hops N B E s' + 1 ≤ potential hops N B E s ∧
      (∀ op ∈ ops, op = .run ∨ ∃ d p dest proto, op = .send d p dest proto) ∧ ProperRun E s ops ∧ exec E s ops = .ok s' := by
  have hprun : Proper s .run := ⟨True.intro, True.intro⟩
  obtain ⟨u, hu⟩ := fit_progress hf hprun
  have hfu := fit_step hf hprun hu
  have hone : ProperRun E s [.run] := by
    intro o1 op o2 s1 ho _
    have : op = .run := by
      have : op ∈ [Op.run] := by rw [ho]; simp
      simpa using this
    subst this
    exact ⟨True.intro, True.intro⟩
  simp only [step] at hu
  have hex : exec E s [.run] = .ok u := by simp [exec, step, hu]
  cases hp : s.pending with
  | nil => exact absurd hp hne
  | cons p ps =>
    obtain ⟨kc, kp⟩ := potential_run (hops := hops) (B := B) hp hN hf.inv.dev hu
    have hNu : Bounded N u := by intro c; rw [kc]; exact hN c
    rw [runK_flood, hp]
    obtain ⟨t, a⟩ := p
    cases a with
    | txComplete d dest => exact ⟨u, [.run], hu, hfu, hNu, kp, by simp, hone, hex⟩
    | receive d f src rx =>
      simp only at kp ⊢
      rw [hu, Outcome.ok_bind]
      have hrecv : receive E { s with now := t, pending := ps } d f src rx = .ok u := by
        rw [← hu]; unfold run; rw [hp]; rfl
      rcases floodReact_receive (R := R) hrecv with h | ⟨q, proto, a, b, hdec, h⟩
      · exact ⟨u, [.run], h, hfu, hNu, by omega, by simp, hone, hex⟩
      · rw [h]
        obtain ⟨r1, r2⟩ := hR u d q proto a
        have hfh : frameHops hops E f = hops q := by unfold frameHops; rw [hdec]
        obtain ⟨s', ops, g1, g2, g3, g4, g5, g6, g7⟩ := potential_sendAll (hops := hops) (B := B) (N := N) (D := below N B (hops q))
          (R u d q proto a) hfu hNu fun e he => ⟨floodCost_lt N B (r2 e he).1, (r2 e he).2⟩
        refine ⟨s', [.run] ++ ops, g1, g2, g3, ?_, ?_, properRun_append hone hex g6, by rw [exec_append, hex]; exact g7⟩
        · have := Nat.mul_le_mul_right (below N B (hops q)) r1
          rw [hfh] at kp
          omega
        · intro op hop
          rcases List.mem_append.mp hop with hop | hop
          · exact Or.inl (List.mem_singleton.mp hop)
          · exact g5 op hop

/-- All events are run after at most as many as the potential says. -/
theorem flood_ends {R : Flooder} (hR : HopLimited hops B R) (n : Nat) : ∀ {s : Sys}, Fit E s → Bounded N s →
    potential hops N B E s ≤ n →
    ∃ k s' ops, k ≤ n ∧ flood E R k s = .ok s' ∧ s'.pending = [] ∧
      (∀ op ∈ ops, op = .run ∨ ∃ d p dest proto, op = .send d p dest proto) ∧ ProperRun E s ops ∧ exec E s ops = .ok s' := by
  induction n with
  | zero =>
    intro s hf hN hle
    cases hp : s.pending with
    | nil => exact ⟨0, s, [], Nat.le_refl _, rfl, hp, by simp, by intro o1 op o2 s1 ho; simp at ho, rfl⟩
    | cons p ps =>
      obtain ⟨_, _, _, _, _, h, _⟩ := flood_step hR hf hN (by rw [hp]; simp)
      omega
  | succ n ih =>
    intro s hf hN hle
    cases hp : s.pending with
    | nil => exact ⟨0, s, [], Nat.zero_le _, rfl, hp, by simp, by intro o1 op o2 s1 ho; simp at ho, rfl⟩
    | cons p ps =>
      obtain ⟨u, o, h1, h2, h3, h4, h5, h6, h7⟩ := flood_step hR hf hN (by rw [hp]; simp)
      obtain ⟨k, s', o', g1, g2, g3, g4, g5, g6⟩ := ih h2 h3 (by omega)
      refine ⟨k + 1, s', o ++ o', by omega, by rw [flood, h1, Outcome.ok_bind, g2], g3, ?_, properRun_append h6 h7 g5,
        by rw [exec_append, h7]; exact g6⟩
      intro op hop
      rcases List.mem_append.mp hop with hop | hop
      · exact h5 op hop
      · exact g4 op hop

end

/-! ### Channels do not have more devices than were attached -/

theorem bounded_noAttach {E : Env} {s s' : Sys} {op : Op} {K : Nat} (hb : Bounded K s) (h : step E s op = .ok s')
    (hop : ∀ d c, op ≠ .attach d c) : Bounded K s' := by
  rcases chan_step h with h1 | ⟨d, c, rfl⟩ | ⟨c, slot, rfl⟩
  · intro c; rw [h1]; exact hb c
  · exact absurd rfl (hop d c)
  · obtain ⟨g, t, hgt, h⟩ := detach_ok h
    have hgt' : g.length ≤ K ∧ t.length ≤ K := by
      obtain ⟨h1, h2, h3⟩ := hb c
      rcases hgt with ⟨_, rfl, rfl⟩ | ⟨_, d, _, rfl, rfl⟩
      · omega
      · have a1 := mapErase_length (s.dev d).addr (s.chan c).gnd
        have a2 := mapErase_length (s.dev d).addr (s.chan c).sat
        omega
    intro c'
    by_cases hc : c' = c
    · subst hc
      obtain ⟨h1, h2, h3⟩ := hb c'
      rcases h with ⟨d, _, _, rfl⟩ | ⟨_, rfl⟩ <;> simp <;> omega
    · rcases h with ⟨d, _, _, rfl⟩ | ⟨_, rfl⟩ <;> simpa [hc] using hb c'

theorem bounded_attaches {E : Env} {s s' : Sys} {ops : List Op} {K : Nat} (hb : Bounded K s) (h : exec E s ops = .ok s') :
    Bounded (K + attachCalls ops) s' := by
  induction ops generalizing s K with
  | nil => injection h with h; subst h; exact hb
  | cons op ops ih =>
    simp only [exec] at h
    rw [Outcome.bind_eq_ok] at h
    obtain ⟨s1, h1, h2⟩ := h
    by_cases ha : ∃ d c, op = .attach d c
    · obtain ⟨d, c, rfl⟩ := ha
      have := ih (bounded_step hb h1) h2
      rw [show attachCalls (.attach d c :: ops) = attachCalls ops + 1 from rfl, show K + (attachCalls ops + 1) = K + 1 + attachCalls ops by omega]
      exact this
    · have hne : ∀ d c, op ≠ .attach d c := fun d c hh => ha ⟨d, c, hh⟩
      have := ih (bounded_noAttach hb h1 hne) h2
      have e : attachCalls (op :: ops) = attachCalls ops := by
        unfold attachCalls
        rw [List.filter_cons]
        cases op <;> first | exact absurd rfl (hne _ _) | rfl
      rw [e]
      exact this

end Verif
