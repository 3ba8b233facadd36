import Verif.Lemmas.Relay
import Verif.Spec.Flood
/-! Endless routes. -/

namespace Verif
open Spec

/-- The hops `i`, `i + 1`, …, `i + n - 1` of an endless route. -/
def segment (route : Nat → Hop) : Nat → Nat → List Hop
  | _, 0 => []
  | i, n + 1 => route i :: segment route (i + 1) n

theorem timed_segment {t : Time} {route : Nat → Hop} (n : Nat) : ∀ i,
    timed (startOf t route i) (segment route i n) = (List.range' i n).map fun j => (startOf t route j, route j) := by
  induction n with
  | zero => intro i; rfl
  | succ n ih =>
    intro i
    simp only [segment, timed, List.range'_succ, List.map_cons]
    rw [show startOf t route i + (route i).delay = startOf t route (i + 1) from rfl, ih]

theorem leads_segment {E : Env} {s : Sys} {R : Forwarder} {route : Nat → Hop} (h : Endless E s R route) (n : Nat) : ∀ i,
    LeadsOn s R (segment route i (n + 1)) := by
  induction n with
  | zero => intro i; exact True.intro
  | succ n ih => intro i; exact ⟨h.leads i, ih (i + 1)⟩

theorem hops_segment {E : Env} {s : Sys} {R : Forwarder} {route : Nat → Hop} (h : Endless E s R route) (n i : Nat) :
    ∀ e ∈ timed (startOf s.now route i) (segment route i n), HopOk E s e.1 e.2 := by
  rw [timed_segment]
  intro e he
  obtain ⟨j, _, rfl⟩ := List.mem_map.mp he
  exact h.hop j

theorem apart_segment {E : Env} {s : Sys} {R : Forwarder} {route : Nat → Hop} (h : Endless E s R route) (n i : Nat) :
    (timed (startOf s.now route i) (segment route i n)).Pairwise fun a b => a.2.src = b.2.src → a.1 + a.2.occupies E s < b.1 := by
  rw [timed_segment, List.pairwise_map]
  exact (List.pairwise_lt_range' (s := i) (n := n) (step := 1)).imp fun hlt he => h.apart _ _ hlt he

/-- The packet goes along the hops that are known to be before it. -/
theorem on_way_along {E : Env} {R : Forwarder} {s : Sys} (hE : ErrorFree E) (hs : Fit E s) {route : Nat → Hop} {t0 : Time} (n : Nat) :
    ∀ (i : Nat) (live : Pending) (dead : List Pending) (u : Sys),
      OnWay E s R (startOf t0 route i) (route i) (segment route (i + 1) n) live dead u →
      ∃ k u' live' dead', n ≤ k ∧ relay E R k u = .ok u' ∧ OnWay E s R (startOf t0 route (i + n)) (route (i + n)) [] live' dead' u' ∧
        allUps u'.log = allUps u.log ++ arrivals s (startOf t0 route i) (segment route i n) := by
  induction n with
  | zero => intro i live dead u w; exact ⟨0, u, live, dead, Nat.le_refl _, rfl, w, by simp [segment, arrivals, timed]⟩
  | succ n ih =>
    intro i live dead u w
    obtain ⟨k, u1, live1, dead1, h1, w1, h2⟩ := on_way_step hE hs w
    obtain ⟨m, u', live', dead', h3, h4, h5, h6⟩ := ih (i + 1) live1 dead1 u1 w1
    refine ⟨k + 1 + m, u', live', dead', by omega, by rw [relay_add, h1, Outcome.ok_bind, h4], ?_, ?_⟩
    · rw [show i + (n + 1) = i + 1 + n by omega]; exact h5
    · rw [h6, h2, List.append_assoc]; rfl

theorem relay_idle {E : Env} {R : Forwarder} {s : Sys} (h : s.pending = []) : ∀ n, relay E R n s = .ok s
  | 0 => rfl
  | n + 1 => by rw [relay, runK, h]; exact relay_idle h n

theorem startOf_le {t : Time} {route : Nat → Hop} {i j : Nat} (h : i ≤ j) : startOf t route i ≤ startOf t route j := by
  induction h with
  | refl => exact Nat.le_refl _
  | step _ ih => exact Nat.le_trans ih (Nat.le_add_right _ _)

end Verif
