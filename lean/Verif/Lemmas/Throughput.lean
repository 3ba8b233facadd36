import Verif.Lemmas.Order
import Verif.Lemmas.Queueing
import Verif.Spec.Throughput
/-!
# Frames between two devices in a span of time (for C105)
-/

namespace Verif
open Spec

/-- Hand-overs from `src` to `dst` with their times. -/
def handedEv (src dst : DevId) : Ev → Option Bytes
  | .txrx _ f s d _ _ => if d = dst ∧ s = src then some f else none
  | _ => none

theorem proj_eq_projT {α : Type} (g : Ev → Option α) {n : Time} : ∀ {l : List (Time × Ev)}, (∀ e ∈ l, e.1 = n) →
    projT g l = (proj g l).map (fun a => (n, a))
  | [], _ => rfl
  | e :: l, h => by
    have ih := proj_eq_projT g (l := l) (fun e he => h e (by simp [he]))
    have he := h e (by simp)
    unfold projT proj at ih ⊢
    rw [List.filterMap_cons, List.filterMap_cons, ih]
    cases g e.2 with
    | none => rfl
    | some a => simp [he]

/-- With times: the hand-overs from one device to another are some of the transmissions. -/
theorem handedT_exec {E : Env} {s s' : Sys} {ops : List Op} (h0 : Initial s) (h : exec E s ops = .ok s')
    (hnd : ∀ c, (s'.chan c).link.Nodup) (src dst : DevId) :
    (projT (handedEv src dst) s'.log).Sublist (begunT src s'.log) := by
  have key : ∀ (ops : List Op) (s : Sys), Good s → (∀ c, OnceInv c s) → exec E s ops = .ok s' →
      (∀ c, (s.chan c).link.Nodup) ∧ ((projT (handedEv src dst) s.log).Sublist (begunT src s.log) →
        (projT (handedEv src dst) s'.log).Sublist (begunT src s'.log)) := by
    intro ops
    induction ops with
    | nil => intro s _ _ h; injection h with h; subst h; exact ⟨hnd, id⟩
    | cons op ops ih =>
      intro s hg ho h
      simp only [exec] at h
      rw [Outcome.bind_eq_ok] at h
      obtain ⟨s1, h1, h2⟩ := h
      obtain ⟨k1, k2⟩ := ih s1 (good_step hg h1) (fun c => onceInv_step (ho c) h1) h2
      have hn : ∀ c, (s.chan c).link.Nodup := by
        intro c
        obtain ⟨l, hl⟩ := link_step h1 c
        have := k1 c
        rw [hl] at this
        exact (List.nodup_append.mp this).1
      refine ⟨hn, fun hi => k2 ?_⟩
      have hsub := handed_step hg.inv hg.wired h1 ho hn src dst
      have htime : ∀ e ∈ newLog s s1, e.1 = s1.now := by
        obtain ⟨l, hl, hl'⟩ := (clock_step hg.inv.clock h1).2.2
        have : newLog s s1 = l := by unfold newLog; rw [hl, List.drop_left]
        rw [this]
        exact hl'
      unfold begunT
      rw [log_prefix_step hg.inv hg.wired h1, projT_append, projT_append]
      refine List.Sublist.append hi ?_
      rw [proj_eq_projT _ htime, proj_eq_projT _ htime]
      exact hsub.map _
  refine (key ops s (good_initial h0) (fun c => onceInv_exec (E := E) h0 (ops := []) rfl c) h).2 ?_
  rw [h0.log]; exact List.Sublist.refl _

/-- Starts that leave room for the work of each frame: the work done from `a` on fits before the end of the last one. -/
theorem spaced_load {w : Bytes → Time} {W : Time} : ∀ {M : List (Time × Bytes)} {a : Time × Bytes},
    (a :: M).Pairwise (fun a b => a.1 + w a.2 ≤ b.1) → (∀ x ∈ a :: M, w x.2 ≤ W) →
    ∃ z ∈ a :: M, a.1 + load w ((a :: M).map Prod.snd) ≤ z.1 + W
  | [], a, _, hW => ⟨a, by simp, by simpa [load] using hW a (by simp)⟩
  | b :: M, a, hp, hW => by
    obtain ⟨h1, h2⟩ := List.pairwise_cons.mp hp
    obtain ⟨z, hz, hz'⟩ := spaced_load h2 (fun x hx => hW x (List.mem_cons_of_mem _ hx))
    refine ⟨z, List.mem_cons_of_mem _ hz, ?_⟩
    have := h1 b (by simp)
    simp only [load, List.map_cons, List.sum_cons] at hz' ⊢
    omega

/-- Work begun within a span of time. -/
theorem window_load {w : Bytes → Time} {W lo hi x y : Time} {M : List (Time × Bytes)}
    (hp : M.Pairwise (fun a b => a.1 + w a.2 ≤ b.1)) (hW : ∀ a ∈ M, w a.2 ≤ W)
    (hw : ∀ a ∈ M, lo ≤ a.1 + y ∧ a.1 + x ≤ hi) (hle : lo + x ≤ hi + y) :
    load w (M.map Prod.snd) + (lo + x) ≤ (hi + y) + W := by
  cases M with
  | nil => simp [load]; omega
  | cons a M =>
    obtain ⟨z, hz, h⟩ := spaced_load hp hW
    have h1 := (hw a (by simp)).1
    have h2 := (hw z hz).2
    omega

theorem load_perm {w : Bytes → Time} {l m : List Bytes} (h : l.Perm m) : load w l = load w m := (h.map w).sum_eq

theorem load_append (w : Bytes → Time) (l m : List Bytes) : load w (l ++ m) = load w l + load w m := by
  simp [load]

theorem load_sublist {w : Bytes → Time} {l m : List Bytes} (h : l.Sublist m) : load w l ≤ load w m := by
  induction h with
  | slnil => exact Nat.le_refl _
  | cons a _ ih => simp only [load, List.map_cons, List.sum_cons] at ih ⊢; omega
  | cons_cons a _ ih => simp only [load, List.map_cons, List.sum_cons] at ih ⊢; omega

/-- Receptions announced for a span of time were handed over in the span shifted by the delays. -/
theorem announced_handed {src dst : DevId} {lo hi t0 t1 : Time} : ∀ {log : List (Time × Ev)}, DelaysWithin src dst lo hi log →
    ((during t0 t1 (between src dst (announced log))).map Arrival.frame).Sublist
      (((projT (handedEv src dst) log).filter fun a => decide (t0 ≤ a.1 + hi) && decide (a.1 + lo ≤ t1)).map Prod.snd)
  | [], _ => List.Sublist.refl _
  | e :: log, h => by
    have ih := announced_handed (src := src) (dst := dst) (lo := lo) (hi := hi) (t0 := t0) (t1 := t1) (log := log)
      (fun t c f tx del hm => h t c f tx del (List.mem_cons_of_mem _ hm))
    have e1 : announced (e :: log) = announced [e] ++ announced log := announced_append [e] log
    have e2 : projT (handedEv src dst) (e :: log) = projT (handedEv src dst) [e] ++ projT (handedEv src dst) log :=
      projT_append _ [e] log
    rw [e1, e2, between_append, during, List.filter_append, List.filter_append, List.map_append, List.map_append]
    refine List.Sublist.append ?_ ih
    obtain ⟨t, ev⟩ := e
    cases ev <;> first | exact List.nil_sublist _ | skip
    rename_i c f s d tx del
    by_cases h1 : s = src
    · by_cases h2 : d = dst
      · subst h1 h2
        obtain ⟨b1, b2⟩ := h t c f tx del (by simp)
        by_cases hw : t0 ≤ t + del ∧ t + del ≤ t1
        · have : t0 ≤ t + hi ∧ t + lo ≤ t1 := by omega
          simp [announced, between, projT, handedEv, this, hw]
        · have : (decide (t0 ≤ t + del) && decide (t + del ≤ t1)) = false := by
            rw [Bool.and_eq_false_iff, decide_eq_false_iff_not, decide_eq_false_iff_not]; omega
          simp [announced, between, this]
      · simp [announced, between, h2]
    · simp [announced, between, h1]

theorem bits_le {txTime : Nat → Nat → Time} (hx : RateExact txTime) {r : Nat} (hr : 0 < r) (g : Time) (l : List Bytes) :
    bits l * 1000000000 ≤ r * (load (fun f => txTime r f.length + g) l + l.length) := by
  induction l with
  | nil => simp [bits, load]
  | cons f l ih =>
    have h1 := hx r f.length hr
    simp only [bits, load, List.map_cons, List.sum_cons, List.length_cons] at ih ⊢
    generalize (l.map fun f => 8 * f.length).sum = B at *
    generalize (l.map fun f => txTime r f.length + g).sum = L at *
    generalize txTime r f.length = T at *
    have e : r * (T + g + L + (l.length + 1)) = r * (L + l.length) + (T + 1) * r + r * g := by ring
    rw [e]
    have : (8 * f.length + B) * 1000000000 = B * 1000000000 + 8 * f.length * 1000000000 := by ring
    rw [this]
    have := Nat.add_le_add ih h1
    exact Nat.le_trans this (Nat.le_add_right _ _)

/-- Entry `k + 1` of the schedule. -/
theorem fifo_next {w : Bytes → Time} : ∀ {l : List (Time × Bytes)} {free : Time} {k : Nat} {b a : Time × Bytes},
    (fifo w free l)[k]? = some b → l[k + 1]? = some a → (fifo w free l)[k + 1]? = some (max a.1 (b.1 + w b.2), a.2)
  | [], _, _, _, _, _, h => by simp at h
  | (t, f) :: l, free, 0, b, a, hb, ha => by
    simp only [fifo, List.getElem?_cons_zero, Option.some.injEq] at hb
    subst hb
    simp only [zero_add, List.getElem?_cons_succ] at ha
    cases l with
    | nil => simp at ha
    | cons x l =>
      simp only [List.getElem?_cons_zero, Option.some.injEq] at ha
      subst ha
      simp [fifo]
  | (t, f) :: l, free, k + 1, b, a, hb, ha => by
    simp only [fifo, List.getElem?_cons_succ] at hb ha ⊢
    exact fifo_next hb ha

theorem fifo_spaced (w : Bytes → Time) (free : Time) (l : List (Time × Bytes)) :
    (fifo w free l).Pairwise (fun a b => a.1 + w a.2 ≤ b.1) := by
  induction l generalizing free with
  | nil => exact .nil
  | cons a l ih => exact .cons (fun b hb => fifo_ge _ _ _ b hb) (ih _)

end Verif
