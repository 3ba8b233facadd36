import Verif.Spec.Converse
import Verif.Props.Flood
/-! Floods as plain traffic. -/

namespace Verif
open Spec

theorem ups_run {E : Env} {s t : Sys} (h : run E s = .ok t) : ∃ l, allUps t.log = allUps s.log ++ l := by
  unfold run at h
  split at h
  · obtain rfl := Outcome.ok.inj h
    exact ⟨[], by simp⟩
  · unfold dispatch at h
    split at h
    · have := ups_complete h
      exact ⟨[], by rw [this]; simp⟩
    · have := ups_receive h
      exact ⟨_, this⟩

theorem ups_sends {E : Env} : ∀ (ops : List Op) {s t : Sys}, (∀ op ∈ ops, ∃ d p dest proto, op = .send d p dest proto) →
    exec E s ops = .ok t → allUps t.log = allUps s.log := by
  intro ops
  induction ops with
  | nil => intro s t _ h; obtain rfl := Outcome.ok.inj h; rfl
  | cons op ops ih =>
    intro s t ho h
    obtain ⟨d, p, dest, proto, rfl⟩ := ho op List.mem_cons_self
    simp only [exec, step] at h
    rw [Outcome.bind_eq_ok] at h
    obtain ⟨u, h1, h2⟩ := h
    rw [ih (fun op hop => ho op (List.mem_cons_of_mem _ hop)) h2, ups_send h1]

theorem answers_sends (R : Flooder) (s t : Sys) : ∀ op ∈ answers R s t, ∃ d p dest proto, op = .send d p dest proto := by
  intro op hop
  unfold answers at hop
  obtain ⟨u, _, hu⟩ := List.mem_flatMap.mp hop
  obtain ⟨c, _, rfl⟩ := List.mem_map.mp hu
  exact ⟨_, _, _, _, rfl⟩

theorem ups_flood {E : Env} {R : Flooder} : ∀ (n : Nat) {s t : Sys}, flood E R n s = .ok t → ∃ l, allUps t.log = allUps s.log ++ l := by
  intro n
  induction n with
  | zero => intro s t h; obtain rfl := Outcome.ok.inj h; exact ⟨[], by simp⟩
  | succ n ih =>
    intro s t h
    rw [C98_answers, Outcome.bind_eq_ok] at h
    obtain ⟨u, h1, h⟩ := h
    rw [Outcome.bind_eq_ok] at h
    obtain ⟨v, h2, h3⟩ := h
    obtain ⟨l1, e1⟩ := ups_run h1
    obtain ⟨l2, e2⟩ := ih h3
    exact ⟨l1 ++ l2, by rw [e2, ups_sends _ (answers_sends R s u) h2, e1, List.append_assoc]⟩

/-- A flood that ends is a history of events and `Send` calls, with the packets it passes up. -/
theorem flood_exec {E : Env} {R : Flooder} {P : DevId × Bytes × Addr × UInt16 → Prop} : ∀ (n : Nat) {s t : Sys}, flood E R n s = .ok t →
    ∀ {l}, allUps t.log = allUps s.log ++ l → (∀ e ∈ l, ∀ u, ∀ c ∈ R u e.2.1 e.2.2.1 e.2.2.2.1 e.2.2.2.2, P c) →
    ∃ ops, exec E s ops = .ok t ∧ ∀ op ∈ ops, op = .run ∨ ∃ c, P c ∧ op = .send c.1 c.2.1 c.2.2.1 c.2.2.2 := by
  intro n
  induction n with
  | zero => intro s t h l _ _; obtain rfl := Outcome.ok.inj h; exact ⟨[], rfl, (fun op hop => by cases hop)⟩
  | succ n ih =>
    intro s t h l hl hP
    rw [C98_answers, Outcome.bind_eq_ok] at h
    obtain ⟨u, h1, h⟩ := h
    rw [Outcome.bind_eq_ok] at h
    obtain ⟨v, h2, h3⟩ := h
    obtain ⟨l1, e1⟩ := ups_run h1
    obtain ⟨l2, e2⟩ := ups_flood n h3
    have e3 := ups_sends _ (answers_sends R s u) h2
    have hsplit : l = l1 ++ l2 := by
      rw [e2, e3, e1, List.append_assoc] at hl
      exact (List.append_cancel_left hl).symm
    subst hsplit
    obtain ⟨ops, g1, g2⟩ := ih h3 e2 (fun e he => hP e (List.mem_append_right _ he))
    refine ⟨.run :: (answers R s u ++ ops), ?_, ?_⟩
    · show (step E s .run >>= fun t => exec E t (answers R s u ++ ops)) = _
      rw [h1, Outcome.ok_bind, exec_append, h2, Outcome.ok_bind, g1]
    · intro op hop
      rcases List.mem_cons.mp hop with rfl | hop
      · exact Or.inl rfl
      rcases List.mem_append.mp hop with hop | hop
      · right
        unfold answers at hop
        rw [e1, List.drop_left] at hop
        obtain ⟨w, hw, hop⟩ := List.mem_flatMap.mp hop
        obtain ⟨c, hc, rfl⟩ := List.mem_map.mp hop
        exact ⟨c, hP w (List.mem_append_left _ hw) u c hc, rfl⟩
      · exact g2 op hop

/-- A packet sent to everybody and flooded is plain traffic. -/
theorem flooding_plain {E : Env} {own : NodeId → Bytes → UInt16 → Bool} {ports : NodeId → List DevId} {n0 : NodeId} {p : Bytes}
    (hlen : p.length ≤ 1492) {proto : UInt16} {k : Nat} {s t : Sys}
    (h : (sendAll E (onAll ports n0 p proto) s >>= flood E (floodOnce own ports) k) = .ok t) {l}
    (hl : allUps t.log = allUps s.log ++ l) (hp : ∀ e ∈ l, e.2.2.1 = p) :
    ∃ ops, exec E s ops = .ok t ∧ ∀ op ∈ ops, PlainTraffic op := by
  rw [Outcome.bind_eq_ok] at h
  obtain ⟨u, h1, h2⟩ := h
  rw [sendAll_exec] at h1
  have e := ups_sends _ (fun op hop => by
    obtain ⟨c, _, rfl⟩ := List.mem_map.mp hop
    exact ⟨_, _, _, _, rfl⟩) h1
  have hon : ∀ q n pr, ∀ c ∈ onAll ports n q pr, c.2.1 = q ∧ c.2.2.1 ≠ .other := by
    intro q n pr c hc
    obtain ⟨d, _, rfl⟩ := List.mem_map.mp hc
    exact ⟨rfl, by simp⟩
  obtain ⟨ops, g1, g2⟩ := flood_exec (P := fun c => c.2.1 = p ∧ c.2.2.1 ≠ .other) k h2 (l := l) (by rw [hl, e]) (by
    intro e he u c hc
    unfold floodOnce at hc
    split at hc
    · cases hc
    · split at hc
      · rw [← hp e he]
        exact hon _ _ _ c hc
      · cases hc)
  refine ⟨_ ++ ops, by rw [exec_append, h1, Outcome.ok_bind, g1], ?_⟩
  intro op hop
  rcases List.mem_append.mp hop with hop | hop
  · obtain ⟨c, hc, rfl⟩ := List.mem_map.mp hop
    have := hon _ _ _ c hc
    exact ⟨this.2, by rw [this.1]; exact hlen.trans (by norm_num)⟩
  · rcases g2 op hop with rfl | ⟨c, hc, rfl⟩
    · trivial
    · exact ⟨hc.2, by rw [hc.1]; exact hlen.trans (by norm_num)⟩

theorem flood_idle {E : Env} {R : Flooder} {s : Sys} (h : s.pending = []) : ∀ n, flood E R n s = .ok s
  | 0 => rfl
  | n + 1 => by
    have : runK E (floodSink E R) s = .ok s := by unfold runK; rw [h]
    rw [flood, this, Outcome.ok_bind]
    exact flood_idle h n

theorem flood_add {E : Env} {R : Flooder} (m : Nat) : ∀ (k : Nat) (u : Sys), flood E R (k + m) u = (flood E R k u >>= flood E R m)
  | 0, u => by rw [Nat.zero_add]; rfl
  | k + 1, u => by
    rw [Nat.add_right_comm, flood, flood]
    cases runK E (floodSink E R) u with
    | fail e => rfl
    | ok v => rw [Outcome.ok_bind, Outcome.ok_bind]; exact flood_add m k v

/-- Two floods of the same packets that have ended have ended in the same state. -/
theorem flood_unique {E : Env} {R : Flooder} {o : Outcome Sys} {k k' : Nat} {t t' : Sys} (h : (o >>= flood E R k) = .ok t) (hq : t.pending = [])
    (h' : (o >>= flood E R k') = .ok t') (hq' : t'.pending = []) : t = t' := by
  rw [Outcome.bind_eq_ok] at h h'
  obtain ⟨u, hu, h⟩ := h
  obtain ⟨u', hu', h'⟩ := h'
  rw [hu] at hu'
  obtain rfl := Outcome.ok.inj hu'
  rcases Nat.le_total k k' with hle | hle
  · obtain ⟨d, rfl⟩ := Nat.exists_eq_add_of_le hle
    rw [flood_add, h, Outcome.ok_bind, flood_idle hq] at h'
    exact Outcome.ok.inj h'
  · obtain ⟨d, rfl⟩ := Nat.exists_eq_add_of_le hle
    rw [flood_add, h', Outcome.ok_bind, flood_idle hq'] at h
    exact (Outcome.ok.inj h).symm

end Verif
