import Verif.Lemmas.NetView
import Mathlib.Algebra.BigOperators.Group.List.Basic
/-! The event list drains when nobody sends any more. -/

namespace Verif
open Spec

theorem insertPending_perm (p : Pending) (l : List Pending) : (insertPending p l).Perm (p :: l) := by
  induction l with
  | nil => exact List.Perm.refl _
  | cons a l ih =>
    simp only [insertPending]
    split
    · exact List.Perm.refl _
    · exact (List.Perm.cons a ih).trans (List.Perm.swap p a l)

theorem insertAll_perm (ps l : List Pending) : (insertAll ps l).Perm (ps ++ l) := by
  induction ps generalizing l with
  | nil => exact List.Perm.refl _
  | cons p ps ih =>
    rw [insertAll_cons]
    refine (ih _).trans ?_
    refine ((insertPending_perm p l).append_left ps).trans ?_
    simpa using (List.perm_middle (a := p) (l₁ := ps) (l₂ := l))

/-- Number of events still to come from one pending event. -/
def wt (K : Nat) (q : DevId → List Bytes) (p : Pending) : Nat :=
  match p.act with
  | .receive .. => 1
  | .txComplete d _ => 1 + (K + 1) * (q d).length

/-- Bound on the number of events to come. -/
def pot (K : Nat) (q : DevId → List Bytes) (ps : List Pending) : Nat := (ps.map (wt K q)).sum

theorem pot_cons (K : Nat) (q : DevId → List Bytes) (p : Pending) (ps : List Pending) :
    pot K q (p :: ps) = wt K q p + pot K q ps := by simp [pot]

theorem pot_perm {K : Nat} {q : DevId → List Bytes} {ps qs : List Pending} (h : ps.Perm qs) :
    pot K q ps = pot K q qs := (h.map _).sum_eq

theorem pot_append (K : Nat) (q : DevId → List Bytes) (ps qs : List Pending) :
    pot K q (ps ++ qs) = pot K q ps + pot K q qs := by simp [pot]

theorem pot_recv (K : Nat) (q : DevId → List Bytes) (now : Time) (f : Bytes) (src : DevId) (rs : List Recv) :
    pot K q (rs.map (Recv.pend now f src)) = rs.length := by
  induction rs with
  | nil => rfl
  | cons r rs ih => rw [List.map_cons, pot_cons, ih]; simp [wt, Recv.pend]; omega

theorem pot_congr {K : Nat} {q q' : DevId → List Bytes} {d : DevId} (hq : ∀ x, x ≠ d → q' x = q x)
    {ps : List Pending} (h : txc d ps = []) : pot K q' ps = pot K q ps := by
  induction ps with
  | nil => rfl
  | cons p ps ih =>
    rw [txc_cons] at h
    rw [List.append_eq_nil_iff] at h
    rw [pot_cons, pot_cons, ih h.2]
    congr 1
    unfold wt
    cases ha : p.act with
    | receive => rfl
    | txComplete d' dest =>
      have : d' ≠ d := by
        intro hh
        have h1 := h.1
        simp [ha, hh] at h1
      simp only [hq d' this]

/-- Every channel has at most `K` members. -/
def Bounded (K : Nat) (s : Sys) : Prop :=
  ∀ c, (s.chan c).link.length ≤ K ∧ (s.chan c).gnd.length ≤ K ∧ (s.chan c).sat.length ≤ K

theorem audience_length {K : Nat} {s : Sys} (hb : Bounded K s) (c : ChanId) (slot : Nat) (dest : Addr) :
    (audience s c slot dest).length ≤ K := by
  obtain ⟨h1, h2, h3⟩ := hb c
  unfold audience
  simp only
  split
  · simp
  · rename_i src hsrc
    have hpos : 1 ≤ (s.chan c).link.length := by
      have := List.getElem?_eq_some_iff.mp hsrc
      obtain ⟨h, _⟩ := this
      omega
    split
    · split
      · simpa using h3
      · split
        · simpa using h2
        · simp
    · split
      · simp; omega
      · split
        · have := List.length_eraseIdx_le (s.chan c).link slot
          omega
        · simp

theorem mapInsert_length (a : Mac48) (d : DevId) (m : List (Mac48 × DevId)) :
    (mapInsert a d m).length ≤ m.length + 1 := by
  induction m with
  | nil => simp [mapInsert]
  | cons x m ih =>
    obtain ⟨b, e⟩ := x
    simp only [mapInsert]
    split
    · simp
    · split
      · simp
      · simp; omega

theorem mapErase_length (a : Mac48) (m : List (Mac48 × DevId)) : (mapErase a m).length ≤ m.length :=
  List.length_filter_le _ _

/-- The channels are untouched except by attach and detach. -/
theorem chan_step {E : Env} {s s' : Sys} {op : Op} (h : step E s op = .ok s') :
    s'.chan = s.chan ∨ (∃ d c, op = .attach d c) ∨ (∃ c slot, op = .detach c slot) := by
  cases op with
  | send d p dest proto =>
    left
    rcases send_ok h with ⟨_, rfl⟩ | ⟨hlu, _, m, _, f, hf, hcase⟩
    · rfl
    · rcases hcase with ⟨_, rfl⟩ | ⟨hlen, hb, rfl⟩ | ⟨hlen, hb, g, rest, s3, hq, hts, rfl⟩
      · rfl
      · rfl
      · obtain ⟨_, c, src, rs, b, hchan, _, _, rfl⟩ := transmitStart_ok hts
        rfl
  | attach d c => exact Or.inr (Or.inl ⟨d, c, rfl⟩)
  | detach c slot => exact Or.inr (Or.inr ⟨c, slot, rfl⟩)
  | setAddress d a =>
    cases a with
    | other => cases h
    | mac m => injection h with h; subst h; left; rfl
  | run =>
    left
    simp only [step, run] at h
    split at h
    · injection h with h; subst h; rfl
    · rename_i p ps hp
      obtain ⟨t, a⟩ := p
      cases a with
      | receive d f src rx =>
        obtain ⟨l, hl, rfl⟩ := receive_ok h
        rfl
      | txComplete d dest =>
        obtain ⟨hb, _, f, hcur, hcase⟩ := transmitComplete_ok h
        rcases hcase with ⟨hq, rfl⟩ | ⟨q, rest, hq, hts⟩
        · rfl
        · obtain ⟨_, c, src, rs, b, hchan, _, _, hs3⟩ := transmitStart_ok hts
          rw [hs3]; rfl
  | wait dt =>
    left
    simp only [step] at h
    split at h <;> injection h with h <;> subst h <;> rfl
  | _ => injection h with h; subst h; left; rfl

theorem bounded_step {E : Env} {s s' : Sys} {op : Op} {K : Nat} (hb : Bounded K s) (h : step E s op = .ok s') :
    Bounded (K + 1) s' := by
  have up : Bounded (K + 1) s := fun c => by obtain ⟨h1, h2, h3⟩ := hb c; omega
  rcases chan_step h with h1 | ⟨d, c, rfl⟩ | ⟨c, slot, rfl⟩
  · intro c; rw [h1]; exact up c
  · obtain ⟨g, t, hgt, rfl⟩ := attach_ok h
    intro c'
    by_cases hc : c' = c
    · subst hc
      obtain ⟨h1, h2, h3⟩ := hb c'
      simp only [if_true, List.length_append, List.length_singleton]
      refine ⟨by omega, ?_⟩
      rcases hgt with ⟨_, rfl, rfl⟩ | ⟨_, _, ⟨_, rfl, rfl⟩ | ⟨_, rfl, rfl⟩⟩
      · omega
      · have := mapInsert_length (s.dev d).addr d (s.chan c').gnd; omega
      · have := mapInsert_length (s.dev d).addr d (s.chan c').sat; omega
    · simpa [hc] using up c'
  · obtain ⟨g, t, hgt, h⟩ := detach_ok h
    have hgt' : g.length ≤ K ∧ t.length ≤ K := by
      obtain ⟨h1, h2, h3⟩ := hb c
      rcases hgt with ⟨_, rfl, rfl⟩ | ⟨_, d, _, rfl, rfl⟩
      · omega
      · have a1 := mapErase_length (s.dev d).addr (s.chan c).gnd
        have a2 := mapErase_length (s.dev d).addr (s.chan c).sat
        omega
    intro c'
    by_cases hc : c' = c
    · subst hc
      obtain ⟨h1, h2, h3⟩ := hb c'
      rcases h with ⟨d, _, _, rfl⟩ | ⟨_, rfl⟩ <;> simp <;> omega
    · rcases h with ⟨d, _, _, rfl⟩ | ⟨_, rfl⟩ <;> simpa [hc] using up c'

theorem bounded_exec {E : Env} {s s' : Sys} {ops : List Op} {K : Nat} (hb : Bounded K s) (h : exec E s ops = .ok s') :
    Bounded (K + ops.length) s' := by
  induction ops generalizing s K with
  | nil => injection h with h; subst h; exact hb
  | cons op ops ih =>
    simp only [exec] at h
    rw [Outcome.bind_eq_ok] at h
    obtain ⟨s1, h1, h2⟩ := h
    have := ih (bounded_step hb h1) h2
    rw [List.length_cons, show K + (ops.length + 1) = K + 1 + ops.length by omega]
    exact this

theorem bounded_initial {s : Sys} (h : Initial s) : Bounded 0 s := by
  intro c
  obtain ⟨h1, h2, h3⟩ := h.chans c
  simp [h1, h2, h3]

/-- Each event run makes the bound smaller. -/
theorem pot_run {E : Env} {s s' : Sys} {K : Nat} (hi : Inv s) (hb : Bounded K s) (hne : s.pending ≠ [])
    (h : run E s = .ok s') :
    pot K (fun d => (s'.dev d).queue) s'.pending < pot K (fun d => (s.dev d).queue) s.pending := by
  unfold run at h
  split at h
  · rename_i hp; exact absurd hp hne
  · rename_i p ps hp
    obtain ⟨t, a⟩ := p
    cases a with
    | receive d f src rx =>
      obtain ⟨l, hl, rfl⟩ := receive_ok h
      rw [hp, pot_cons]
      simp [wt]
    | txComplete d dest =>
      obtain ⟨hbusy, _, f, hcur, hcase⟩ := transmitComplete_ok h
      have htd : txc d ps = [] := by
        obtain ⟨_, _, _, _, h2⟩ := (hi.dev d).busy hbusy
        rw [hp, txc_cons] at h2
        simp only [if_true, List.singleton_append, List.cons.injEq] at h2
        exact h2.2
      rcases hcase with ⟨hq, rfl⟩ | ⟨q, rest, hq, hts⟩
      · rw [hp, pot_cons]
        have : pot K (fun x => ((if x = d then { s.dev d with busy := false, cur := none } else s.dev x : Dev)).queue) ps
            = pot K (fun x => (s.dev x).queue) ps :=
          pot_congr (d := d) (fun x hx => by simp [hx]) htd
        simp only [wt]
        simp only at this
        rw [this]
        omega
      · obtain ⟨_, c, src, rs, b, hchan, _, _, hs3, haud, _⟩ := transmitStart_aud hts
        have hlen : rs.length ≤ K := by
          rw [haud]
          refine Nat.le_trans (List.length_filterMap_le _ _) (audience_length ?_ _ _ _)
          exact hb
        rw [hs3]
        simp only [txState]
        rw [pot_perm (insertAll_perm _ _), pot_append, pot_recv, pot_perm (insertPending_perm _ _), pot_cons, hp, pot_cons]
        simp only [wt]
        simp only at hq
        rw [hq]
        rw [pot_congr (d := d) (q := fun x => (s.dev x).queue) _ htd]
        · simp only [List.length_cons]
          simp only [if_true]
          have : (K + 1) * (rest.length + 1) = (K + 1) * rest.length + (K + 1) := by rw [Nat.mul_add, Nat.mul_one]
          omega
        · intro x hx; simp [hx]

theorem exec_run_drains {E : Env} {K : Nat} (n : Nat) {s s' : Sys} (hi : Inv s) (hb : Bounded K s)
    (hn : pot K (fun d => (s.dev d).queue) s.pending ≤ n)
    (h : exec E s (List.replicate n .run) = .ok s') : s'.pending = [] := by
  induction n generalizing s with
  | zero =>
    injection h with h; subst h
    cases hp : s.pending with
    | nil => rfl
    | cons p ps =>
      rw [hp, pot_cons] at hn
      have : 1 ≤ wt K (fun d => (s.dev d).queue) p := by
        unfold wt; split <;> omega
      omega
  | succ n ih =>
    rw [List.replicate_succ] at h
    simp only [exec] at h
    rw [Outcome.bind_eq_ok] at h
    obtain ⟨s1, h1, h2⟩ := h
    by_cases hp : s.pending = []
    · have : s1 = s := by
        simp only [step, run, hp] at h1
        injection h1 with h1; exact h1.symm
      subst this
      refine ih hi hb ?_ h2
      rw [hp]; simp [pot]
    · have hlt := pot_run hi hb hp h1
      refine ih (inv_step hi h1) ?_ (by omega) h2
      rcases chan_step h1 with hc | ⟨_, _, hh⟩ | ⟨_, _, hh⟩
      · intro c; rw [hc]; exact hb c
      · cases hh
      · cases hh

end Verif
