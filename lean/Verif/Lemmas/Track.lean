import Verif.Model.Track
import Verif.Spec.Track
import Verif.Lemmas.Waypoint
import Mathlib.Tactic.FieldSimp
import Mathlib.Tactic.Ring
/-!
# The lazy update of waypoints follows the waypoints
-/

namespace Verif
open Spec

/-- A state of the model that goes on along its waypoints. -/
structure WMob.Good (m : WMob) : Prop where
  inc : Increasing (m.next :: m.queue)
  slope : m.cur.time < m.next.time →
    m.vx = (m.next.x - m.cur.x) / ((m.next.time - m.cur.time : Int) : ℚ) ∧
    m.vy = (m.next.y - m.cur.y) / ((m.next.time - m.cur.time : Int) : ℚ) ∧
    m.vz = (m.next.z - m.cur.z) / ((m.next.time - m.cur.time : Int) : ℚ)
  rest : m.next.time ≤ m.cur.time → spot m.cur = spot m.next

/-- The waypoints still ahead of a state. -/
def WMob.ahead (m : WMob) : List WSample := m.cur :: m.next :: m.queue

theorem place_later {a b : WSample} {l : List WSample} {t : Int} (h : b.time ≤ t) : place (a :: b :: l) t = place (b :: l) t := by
  simp only [place, interp, if_neg (not_lt.mpr h)]

theorem place_before {a b : WSample} {l : List WSample} {t : Int} (h : t < b.time) (h' : t ≤ a.time) : place (a :: b :: l) t = spot a := by
  simp only [place, interp, if_pos h, if_pos h', spot]

theorem place_single (a : WSample) (t : Int) : place [a] t = spot a := rfl

/-- Moving along a segment and going on from there. -/
theorem place_shift {a b c : WSample} {l : List WSample} {t : Int} (hab : a.time < c.time) (hc : c.time < b.time)
    (hx : c.x = a.x + (b.x - a.x) / ((b.time - a.time : Int) : ℚ) * ((c.time - a.time : Int) : ℚ))
    (hy : c.y = a.y + (b.y - a.y) / ((b.time - a.time : Int) : ℚ) * ((c.time - a.time : Int) : ℚ))
    (hz : c.z = a.z + (b.z - a.z) / ((b.time - a.time : Int) : ℚ) * ((c.time - a.time : Int) : ℚ)) (ht : c.time ≤ t) :
    place (c :: b :: l) t = place (a :: b :: l) t ∧
    (b.x - c.x) / ((b.time - c.time : Int) : ℚ) = (b.x - a.x) / ((b.time - a.time : Int) : ℚ) ∧
    (b.y - c.y) / ((b.time - c.time : Int) : ℚ) = (b.y - a.y) / ((b.time - a.time : Int) : ℚ) ∧
    (b.z - c.z) / ((b.time - c.time : Int) : ℚ) = (b.z - a.z) / ((b.time - a.time : Int) : ℚ) := by
  have h1 : ((b.time - a.time : Int) : ℚ) ≠ 0 := by
    have : b.time - a.time ≠ 0 := by omega
    exact_mod_cast this
  have h2 : ((b.time - c.time : Int) : ℚ) ≠ 0 := by
    have : b.time - c.time ≠ 0 := by omega
    exact_mod_cast this
  have key : ∀ u v w : ℚ, w = u + (v - u) / ((b.time - a.time : Int) : ℚ) * ((c.time - a.time : Int) : ℚ) →
      (v - w) / ((b.time - c.time : Int) : ℚ) = (v - u) / ((b.time - a.time : Int) : ℚ) := by
    intro u v w hw
    rw [hw]
    push_cast at h1 h2 ⊢
    field_simp
    ring
  refine ⟨?_, key _ _ _ hx, key _ _ _ hy, key _ _ _ hz⟩
  have hta : ¬ t ≤ a.time := by omega
  have point : ∀ f : WSample → ℚ, f c = f a + (f b - f a) / ((b.time - a.time : Int) : ℚ) * ((c.time - a.time : Int) : ℚ) →
      interp f (c :: b :: l) t = interp f (a :: b :: l) t := by
    intro f hf
    simp only [interp, if_neg hta]
    split
    · split
      · have : t = c.time := by omega
        rw [this, hf]
      · have k : (f b - f c) / ((b.time - c.time : Int) : ℚ) = (f b - f a) / ((b.time - a.time : Int) : ℚ) := key _ _ _ hf
        rw [k, hf]
        push_cast
        ring
    · rfl
  simp only [place, point _ hx, point _ hy, point _ hz]

theorem loop_spec (now : Int) (h0 : 0 ≤ now) : ∀ (ws : List WSample) (cur next : WSample) (vx vy vz : ℚ),
    WMob.Good ⟨cur, next, ws, vx, vy, vz⟩ → cur.time ≤ now →
    ∃ m done, WMob.loop now cur next vx vy vz ws = .ok (m, done) ∧ m.Good ∧ m.cur.time ≤ now ∧
      (∀ t, now ≤ t → place m.ahead t = place (cur :: next :: ws) t) ∧
      (done = true → m.cur.time = now ∧ spot m.cur = place (cur :: next :: ws) now) ∧
      (done = false → now < m.next.time) := by
  intro ws
  induction ws with
  | nil =>
    intro cur next vx vy vz hg hc
    unfold WMob.loop
    by_cases h : next.time ≤ now
    · rw [if_pos h]
      by_cases hcn : cur.time ≤ next.time
      · rw [if_pos hcn]
        refine ⟨_, _, rfl, ⟨by simp [Increasing], ?_, fun _ => rfl⟩, le_rfl, ?_, fun _ => ⟨rfl, ?_⟩, by simp⟩
        · intro h'
          simp only at h'
          omega
        · intro t ht
          rw [WMob.ahead, place_later (by simp only; omega), place_later (by omega)]
          rfl
        · rw [place_later h]
          rfl
      · rw [if_neg hcn]
        have hs : spot cur = spot next := hg.rest (by simp only; omega)
        refine ⟨_, _, rfl, ⟨by simp [Increasing], ?_, fun _ => hs⟩, le_rfl, ?_, fun _ => ⟨rfl, ?_⟩, by simp⟩
        · intro h'
          simp only at h'
          omega
        · intro t ht
          rw [WMob.ahead, place_later (by simp only; omega), place_later (by omega)]
        · rw [place_later h]
          exact hs
    · rw [if_neg h]
      exact ⟨_, _, rfl, hg, hc, fun _ _ => rfl, by simp, fun _ => by simpa using h⟩
  | cons w ws ih =>
    intro cur next vx vy vz hg hc
    unfold WMob.loop
    by_cases h : next.time ≤ now
    · have hi := hg.inc
      have hlt : next.time < w.time := (List.pairwise_cons.mp hi).1 w (by simp)
      rw [if_pos h, if_neg (by omega)]
      obtain ⟨m, done, e, g1, g2, g3, g4, g5⟩ := ih next w ((w.x - next.x) / ((w.time - next.time : Int) : ℚ))
        ((w.y - next.y) / ((w.time - next.time : Int) : ℚ)) ((w.z - next.z) / ((w.time - next.time : Int) : ℚ))
        ⟨(List.pairwise_cons.mp hi).2, fun _ => ⟨rfl, rfl, rfl⟩, fun h' => absurd h' (by simp only; omega)⟩ h
      refine ⟨m, done, e, g1, g2, ?_, ?_, g5⟩
      · intro t ht
        rw [g3 t ht, place_later (a := cur) (b := next) (by omega)]
      · intro hd
        rw [place_later (a := cur) (b := next) h]
        exact g4 hd
    · rw [if_neg h]
      exact ⟨_, _, rfl, hg, hc, fun _ _ => rfl, by simp, fun _ => by simpa using h⟩

/-- One update: it yields the place at that time, and the way ahead is the same. -/
theorem update_spec {now : Int} (h0 : 0 ≤ now) {m : WMob} (hg : m.Good) (hq : m.cur.time ≤ now ∨ m.cur = m.next) :
    ∃ m', m.update now = .ok m' ∧ m'.Good ∧ (m'.cur.time ≤ now ∨ m'.cur = m'.next) ∧ spot m'.cur = place m.ahead now ∧
      ∀ t, now ≤ t → place m'.ahead t = place m.ahead t := by
  unfold WMob.update
  by_cases hc : now < m.cur.time
  · rw [if_pos hc]
    have he : m.cur = m.next := by rcases hq with h | h <;> [omega; exact h]
    refine ⟨m, rfl, hg, Or.inr he, ?_, fun _ _ => rfl⟩
    rw [WMob.ahead, place_before (by rw [← he]; exact hc) hc.le]
  · rw [if_neg hc]
    obtain ⟨m1, done, e, g1, g2, g3, g4, g5⟩ := loop_spec now h0 m.queue m.cur m.next m.vx m.vy m.vz hg (by omega)
    rw [e]
    simp only [Outcome.ok_bind]
    cases done with
    | true =>
      rw [if_pos rfl]
      exact ⟨m1, rfl, g1, Or.inl g2, (g4 rfl).2, g3⟩
    | false =>
      rw [if_neg (by simp)]
      have hn := g5 rfl
      have hs := g1.slope (by omega)
      by_cases hlt : m1.cur.time < now
      · rw [if_pos hlt]
        have hx : m1.cur.x + m1.vx * ((now - m1.cur.time : Int) : ℚ) =
            m1.cur.x + (m1.next.x - m1.cur.x) / ((m1.next.time - m1.cur.time : Int) : ℚ) * ((now - m1.cur.time : Int) : ℚ) := by rw [hs.1]
        have hy : m1.cur.y + m1.vy * ((now - m1.cur.time : Int) : ℚ) =
            m1.cur.y + (m1.next.y - m1.cur.y) / ((m1.next.time - m1.cur.time : Int) : ℚ) * ((now - m1.cur.time : Int) : ℚ) := by rw [hs.2.1]
        have hz : m1.cur.z + m1.vz * ((now - m1.cur.time : Int) : ℚ) =
            m1.cur.z + (m1.next.z - m1.cur.z) / ((m1.next.time - m1.cur.time : Int) : ℚ) * ((now - m1.cur.time : Int) : ℚ) := by rw [hs.2.2]
        have sh := fun t ht => place_shift (a := m1.cur) (b := m1.next) (l := m1.queue)
          (c := ⟨now, m1.cur.x + m1.vx * ((now - m1.cur.time : Int) : ℚ), m1.cur.y + m1.vy * ((now - m1.cur.time : Int) : ℚ),
            m1.cur.z + m1.vz * ((now - m1.cur.time : Int) : ℚ)⟩) (t := t) hlt hn hx hy hz ht
        refine ⟨_, rfl, ⟨g1.inc, fun _ => ?_, fun h => absurd h (by simp only; omega)⟩, Or.inl le_rfl, ?_, ?_⟩
        · obtain ⟨_, k1, k2, k3⟩ := sh now le_rfl
          exact ⟨hs.1.trans k1.symm, hs.2.1.trans k2.symm, hs.2.2.trans k3.symm⟩
        · have := (sh now le_rfl).1
          rw [place_before hn le_rfl] at this
          rw [← show place (m1.cur :: m1.next :: m1.queue) now = place m.ahead now from g3 now le_rfl, ← this]
        · intro t ht
          rw [← show place (m1.cur :: m1.next :: m1.queue) t = place m.ahead t from g3 t ht]
          exact (sh t ht).1
      · rw [if_neg hlt]
        refine ⟨m1, rfl, g1, Or.inl g2, ?_, g3⟩
        rw [← show place (m1.cur :: m1.next :: m1.queue) now = place m.ahead now from g3 now le_rfl, place_before hn (by omega)]

theorem ask_spec : ∀ (ts : List Int) (m : WMob), m.Good → ts.Pairwise (· ≤ ·) → (∀ t ∈ ts, 0 ≤ t) →
    (∀ t ∈ ts, m.cur.time ≤ t ∨ m.cur = m.next) → m.ask ts = .ok (ts.map (place m.ahead)) := by
  intro ts
  induction ts with
  | nil => intro m _ _ _ _; rfl
  | cons t ts ih =>
    intro m hg hs h0 hq
    obtain ⟨hs1, hs2⟩ := List.pairwise_cons.mp hs
    obtain ⟨m', e, g1, g2, g3, g4⟩ := update_spec (h0 t (by simp)) hg (hq t (by simp))
    have := ih m' g1 hs2 (fun u hu => h0 u (by simp [hu])) (fun u hu => g2.imp (fun h => h.trans (hs1 u hu)) id)
    simp only [WMob.ask, e, Outcome.ok_bind, this, List.map_cons]
    congr 2
    exact List.map_congr_left fun u hu => g4 u (hs1 u hu)

/-- Whenever and however often it is asked, a satellite with increasing waypoints is at its place. -/
theorem ask_create {l : List WSample} (hi : Increasing l) {ts : List Int} (hs : ts.Pairwise (· ≤ ·)) (h0 : ∀ t ∈ ts, 0 ≤ t) :
    (WMob.create l).ask ts = .ok (ts.map (place l)) := by
  cases l with
  | nil =>
    rw [ask_spec ts _ ⟨by simp [WMob.create, Increasing], fun h => absurd h (by simp [WMob.create]), fun _ => rfl⟩ hs h0 (fun _ _ => Or.inr rfl)]
    congr 1
    refine List.map_congr_left fun t ht => ?_
    have := h0 t ht
    rw [WMob.ahead, WMob.create, place_later (by simpa using this)]
    rfl
  | cons a l =>
    rw [ask_spec ts _ ⟨hi, fun h => absurd h (by simp [WMob.create]), fun _ => rfl⟩ hs h0 (fun _ _ => Or.inr rfl)]
    congr 1
    refine List.map_congr_left fun t ht => ?_
    show place (a :: a :: l) t = place (a :: l) t
    by_cases h : a.time ≤ t
    · rw [place_later h]
    · rw [place_before (by omega) (by omega)]
      cases l with
      | nil => rfl
      | cons b l =>
        have : a.time < b.time := (List.pairwise_cons.mp hi).1 b (by simp)
        rw [place_before (by omega) (by omega)]

end Verif
