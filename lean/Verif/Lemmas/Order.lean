import Verif.Lemmas.Provenance
import Verif.Props.Visibility
import Verif.Lemmas.Rounded
import Verif.Spec.Order
/-!
# Hand-overs are spaced by transmission times, and what that means for moving nodes (for C103)
-/

namespace Verif
open Spec

/-- Times and transmission times of the hand-overs by `src`. -/
def slots (src : DevId) (log : List (Time × Ev)) : List (Time × Time) :=
  log.filterMap fun e => match e.2 with
    | .txrx _ _ s _ tx _ => if s = src then some (e.1, tx) else none
    | _ => none

theorem mem_slots {src : DevId} {log : List (Time × Ev)} {x : Time × Time} :
    x ∈ slots src log ↔ ∃ c f dst del, (x.1, Ev.txrx c f src dst x.2 del) ∈ log := by
  unfold slots
  rw [List.mem_filterMap]
  constructor
  · rintro ⟨⟨t, e⟩, hm, h⟩
    cases e <;> simp only [reduceCtorEq] at h
    split_ifs at h with hs
    · injection h with h; subst h; subst hs
      exact ⟨_, _, _, _, hm⟩
  · rintro ⟨c, f, dst, del, hm⟩
    exact ⟨_, hm, by simp⟩

theorem slots_append (src : DevId) (l1 l2 : List (Time × Ev)) : slots src (l1 ++ l2) = slots src l1 ++ slots src l2 := by
  unfold slots; exact List.filterMap_append ..

/-- A device hands a frame over only when the transmission of the one before is over. -/
structure SpacedInv (src : DevId) (s : Sys) : Prop where
  bound : ∀ a ∈ slots src s.log,
    ((s.dev src).busy = false → a.1 + a.2 ≤ s.now) ∧ (∀ x ∈ txc src s.pending, a.1 + a.2 ≤ x.1)
  mono : (slots src s.log).Pairwise (fun a b => a.1 = b.1 ∨ a.1 + a.2 ≤ b.1)

theorem spaced_step {E : Env} {s s' : Sys} {op : Op} {src : DevId} (hg : Good s) (h : step E s op = .ok s')
    (hi : SpacedInv src s) : SpacedInv src s' := by
  have hlog := log_prefix_step hg.inv hg.wired h
  have hnow := (clock_step hg.inv.clock h).2.1
  have hnew : ∀ a ∈ slots src (newLog s s'),
      ∃ f, (s'.now, Ev.phyTxBegin src f) ∈ newLog s s' ∧ a = (s'.now, E.txTime (s.dev src).rate f.length) := by
    intro a ha
    obtain ⟨c, f, dst, del, hm⟩ := mem_slots.mp ha
    obtain ⟨dest, pw, _, _, _, h4, h5, _, _, h8⟩ := txrx_step hg.inv hg.wired h hm
    exact ⟨f, h8, by rw [← h4, ← h5]⟩
  have hph : ∀ {ph air acc}, LogStep src s s' ph air acc → ∀ f t, (t, Ev.phyTxBegin src f) ∈ newLog s s' →
      Phase.start f ∈ ph := by
    intro ph air acc hl f t hm
    have h1 := hl.phase
    rw [hlog] at h1
    unfold phasesT at h1
    rw [projT_append] at h1
    have h2 := List.append_cancel_left h1
    have h3 : (t, Phase.start f) ∈ projT (phaseEv src) (newLog s s') := by
      unfold projT
      exact List.mem_filterMap.mpr ⟨_, hm, by simp [phaseEv]⟩
    rw [h2] at h3
    obtain ⟨p, hp, hpe⟩ := List.mem_map.mp h3
    injection hpe with _ hpe
    rw [← hpe]; exact hp
  rw [show SpacedInv src s' ↔ _ from ⟨fun h => And.intro h.bound h.mono, fun h => ⟨h.1, h.2⟩⟩]
  rw [hlog]
  simp only [slots_append]
  have quiet : (∀ a, a ∉ slots src (newLog s s')) →
      (∀ a ∈ slots src s.log,
        ((s'.dev src).busy = false → a.1 + a.2 ≤ s'.now) ∧ (∀ x ∈ txc src s'.pending, a.1 + a.2 ≤ x.1)) →
      (∀ a ∈ slots src s.log ++ slots src (newLog s s'),
        ((s'.dev src).busy = false → a.1 + a.2 ≤ s'.now) ∧ (∀ x ∈ txc src s'.pending, a.1 + a.2 ≤ x.1)) ∧
      (slots src s.log ++ slots src (newLog s s')).Pairwise (fun a b => a.1 = b.1 ∨ a.1 + a.2 ≤ b.1) := by
    intro h1 h2
    rw [List.eq_nil_iff_forall_not_mem.mpr h1, List.append_nil]
    exact ⟨h2, hi.mono⟩
  have trans : ∀ (g : Bytes) (dest : Addr), (∀ a ∈ slots src s.log, a.1 + a.2 ≤ s'.now) →
      (s'.dev src).busy = true →
      txc src s'.pending = [(s'.now + (E.txTime (s.dev src).rate g.length + (s.dev src).gap), dest)] →
      (∀ f t, (t, Ev.phyTxBegin src f) ∈ newLog s s' → f = g) →
      (∀ a ∈ slots src s.log ++ slots src (newLog s s'),
        ((s'.dev src).busy = false → a.1 + a.2 ≤ s'.now) ∧ (∀ x ∈ txc src s'.pending, a.1 + a.2 ≤ x.1)) ∧
      (slots src s.log ++ slots src (newLog s s')).Pairwise (fun a b => a.1 = b.1 ∨ a.1 + a.2 ≤ b.1) := by
    intro g dest hold hb htx hf
    have hnew' : ∀ a ∈ slots src (newLog s s'), a = (s'.now, E.txTime (s.dev src).rate g.length) := by
      intro a ha
      obtain ⟨f, h1, h2⟩ := hnew a ha
      rw [h2, hf f _ h1]
    constructor
    · intro a ha
      refine ⟨fun hb' => (by rw [hb] at hb'; exact absurd hb' (by simp)), ?_⟩
      intro x hx
      rw [htx, List.mem_singleton] at hx
      rw [hx]
      simp only
      rcases List.mem_append.mp ha with ha | ha
      · have := hold a ha; omega
      · rw [hnew' a ha]; simp only; omega
    · rw [List.pairwise_append]
      refine ⟨hi.mono, ?_, ?_⟩
      · rw [List.pairwise_iff_forall_sublist]
        intro a b hab
        rw [hnew' a (hab.subset (by simp)), hnew' b (hab.subset (by simp))]
        exact Or.inl rfl
      · intro a ha b hb
        have h1 := hold a ha
        rw [hnew' b hb]
        exact Or.inr h1
  cases devStep_step hg.inv.dev h src with
  | keep acc hb hc ht hacc hq hl =>
    refine quiet ?_ ?_
    · intro a ha
      obtain ⟨f, h1, _⟩ := hnew a ha
      cases hph hl f _ h1
    · intro a ha
      obtain ⟨b1, b2⟩ := hi.bound a ha
      rw [hb, ht]
      exact ⟨fun hh => Nat.le_trans (b1 hh) hnow, b2⟩
  | start f dest hop hb hb' hc hq ht hl =>
    refine trans f dest ?_ hb' ht ?_
    · intro a ha
      exact Nat.le_trans ((hi.bound a ha).1 hb) hnow
    · intro g t hm
      simpa using hph hl g t hm
  | stop f dest hb hb' hc hq hq' ht hl =>
    refine quiet ?_ ?_
    · intro a ha
      obtain ⟨f, h1, _⟩ := hnew a ha
      simpa using hph hl f _ h1
    · intro a ha
      obtain ⟨b1, b2⟩ := hi.bound a ha
      rw [((inv_step hg.inv h).dev src |>.ready hb').2.2]
      refine ⟨fun _ => b2 (s'.now, dest) (by rw [ht]; simp), ?_⟩
      intro x hx; cases hx
  | next f g dest rest hb hb' hc hc' hq hq' ht ht' hl =>
    refine trans g dest ?_ hb' ht' ?_
    · intro a ha
      exact (hi.bound a ha).2 (s'.now, dest) (by rw [ht]; simp)
    · intro g' t hm
      simpa using hph hl g' t hm

theorem spaced_exec {E : Env} {s s' : Sys} {ops : List Op} (h0 : Initial s) (h : exec E s ops = .ok s') (src : DevId) :
    SpacedInv src s' := by
  have key : ∀ (ops : List Op) (s : Sys), Good s → exec E s ops = .ok s' → SpacedInv src s → SpacedInv src s' := by
    intro ops
    induction ops with
    | nil => intro s _ h hi; injection h with h; subst h; exact hi
    | cons op ops ih =>
      intro s hg h hi
      simp only [exec] at h
      rw [Outcome.bind_eq_ok] at h
      obtain ⟨s1, h1, h2⟩ := h
      exact ih s1 (good_step hg h1) h2 (spaced_step hg h1 hi)
  refine key ops s (good_initial h0) h ⟨?_, ?_⟩
  · rw [h0.log]; simp [slots]
  · rw [h0.log]; simp [slots]

/-- Of two hand-overs by one device in the log, the second is at the same time or after the transmission of the first. -/
theorem SpacedInv.pair {s : Sys} {src : DevId} (hi : SpacedInv src s) {t1 t2 : Time} {c1 c2 : ChanId} {f1 f2 : Bytes}
    {d1 d2 : DevId} {x1 x2 y1 y2 : Time}
    (h : [(t1, Ev.txrx c1 f1 src d1 x1 y1), (t2, Ev.txrx c2 f2 src d2 x2 y2)].Sublist s.log) : t1 = t2 ∨ t1 + x1 ≤ t2 := by
  have h1 := h.filterMap fun e => match e.2 with
    | .txrx _ _ s _ tx _ => if s = src then some (e.1, tx) else none
    | _ => none
  have h2 := hi.mono.sublist (show List.Sublist [(t1, x1), (t2, x2)] (slots src s.log) by unfold slots; simpa using h1)
  simpa using h2

/-- Arrival times between two devices never decrease if those of any two hand-overs do not. -/
theorem between_announced_of_pairs {log : List (Time × Ev)} {src dst : DevId}
    (hp : ∀ t1 c1 f1 x1 y1 t2 c2 f2 x2 y2,
      [(t1, Ev.txrx c1 f1 src dst x1 y1), (t2, Ev.txrx c2 f2 src dst x2 y2)].Sublist log → t1 + y1 ≤ t2 + y2) :
    (between src dst (announced log)).Pairwise (fun a b => a.time ≤ b.time) := by
  unfold between announced
  rw [List.pairwise_filter, List.pairwise_filterMap]
  rw [List.pairwise_iff_forall_sublist]
  rintro ⟨t1, e1⟩ ⟨t2, e2⟩ hab
  cases e1 <;> first | (intro b hb; cases hb; done) | skip
  cases e2 <;> first | (intro b hb b' hb'; cases hb'; done) | skip
  intro b hb b' hb' hc hc'
  injection hb with hb
  injection hb' with hb'
  subst hb hb'
  simp only [Bool.and_eq_true, decide_eq_true_eq] at hc hc'
  obtain ⟨rfl, rfl⟩ := hc
  obtain ⟨hc1, hc2⟩ := hc'
  subst hc1 hc2
  exact hp _ _ _ _ _ _ _ _ _ _ hab

/-- A distance that shrinks by no more than light covers in the time between does not let the later frame overtake. -/
theorem arrival_mono {g : ℝ → Time} (hg : Granular g) {c d1 d2 : ℝ} {t1 t2 : Time} (hc : 0 < c) (h2 : 0 ≤ d2)
    (ht : t1 ≤ t2) (h : d1 ≤ d2 + c * ((t2 : ℝ) / 1000000000 - (t1 : ℝ) / 1000000000)) :
    t1 + g (d1 / c) ≤ t2 + g (d2 / c) := by
  obtain ⟨n, rfl⟩ := Nat.exists_eq_add_of_le ht
  have h1 : d1 / c ≤ d2 / c + (n : ℝ) / 1000000000 := by
    rw [div_le_iff₀ hc]
    have : (d2 / c + (n : ℝ) / 1000000000) * c = d2 + c * ((n : ℝ) / 1000000000) := by field_simp
    rw [this]
    push_cast at h
    linarith [show c * ((t1 + n : ℝ) / 1000000000 - (t1 : ℝ) / 1000000000) = c * ((n : ℝ) / 1000000000) by ring]
  have h3 := hg.mono h1
  rw [hg.shift _ _ (by positivity)] at h3
  have : g (d1 / c) ≤ g (d2 / c) + n := h3
  omega

/-- Rounding down is such a conversion. -/
theorem granular_floor : Granular (fun x => ⌊x * 1000000000⌋₊) where
  mono := fun x y h => Nat.floor_mono (by linarith)
  shift := fun x n h => by
    rw [show (x + (n : ℝ) / 1000000000) * 1000000000 = x * 1000000000 + n by ring, Nat.floor_add_natCast (by positivity)]

theorem len_sub_swap (a b : Vec) : (a - b).len = (b - a).len := by
  unfold Vec.len
  congr 1
  simp only [sub_x, sub_y, sub_z]
  ring

/-- Distances between two nodes that moved. -/
theorem dist_le_moved (a a' b b' : Vec) : (b - a).len ≤ (b' - a').len + (a - a').len + (b - b').len := by
  have e : b - a = (b' - a') + ((b - b') + (a' - a)) := by
    apply Vec.ext <;> simp only [add_x, add_y, add_z, sub_x, sub_y, sub_z] <;> ring
  rw [e]
  have h1 := len_add_le (b' - a') ((b - b') + (a' - a))
  have h2 := len_add_le (b - b') (a' - a)
  rw [len_sub_swap a' a] at h2
  linarith

end Verif
