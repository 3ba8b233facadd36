import Verif.Lemmas.Channel
import Verif.Spec.Timing
/-! Accounting of receptions. -/

namespace Verif
open Spec

@[simp] theorem announced_append (l m : List (Time × Ev)) : announced (l ++ m) = announced l ++ announced m := by
  simp [announced]
@[simp] theorem happened_append (l m : List (Time × Ev)) : happened (l ++ m) = happened l ++ happened m := by
  simp [happened]
@[simp] theorem scheduled_append (l m : List Pending) : scheduled (l ++ m) = scheduled l ++ scheduled m := by
  simp [scheduled]

theorem announced_airFree {l : List (Time × Ev)} (h : AirFree l) : announced l = [] := by
  unfold announced
  rw [List.filterMap_eq_nil_iff]
  rintro ⟨t, e⟩ he
  have := h _ he
  cases e <;> first | rfl | exact absurd this (by simp [AirFreeEv])

theorem happened_airFree {l : List (Time × Ev)} (h : AirFree l) : happened l = [] := by
  unfold happened
  rw [List.filterMap_eq_nil_iff]
  rintro ⟨t, e⟩ he
  have := h _ he
  cases e <;> first | rfl | exact absurd this (by simp [AirFreeEv])

/-- The arrival of a reception scheduled now. -/
def Recv.arr (now : Time) (f : Bytes) (src : DevId) (r : Recv) : Arrival := ⟨now + r.delay, r.dst, f, src⟩

theorem announced_entries (now : Time) (c : ChanId) (f : Bytes) (src : DevId) (t : Time) (rs : List Recv) :
    announced (rs.map (Recv.entry now c f src t)) = rs.map (Recv.arr now f src) := by
  induction rs with
  | nil => rfl
  | cons r rs ih =>
    unfold announced at ih ⊢
    simp [ih, Recv.entry, Recv.arr]

theorem happened_entries (now : Time) (c : ChanId) (f : Bytes) (src : DevId) (t : Time) (rs : List Recv) :
    happened (rs.map (Recv.entry now c f src t)) = [] := by
  induction rs with
  | nil => rfl
  | cons r rs ih =>
    unfold happened at ih ⊢
    simp [ih, Recv.entry]

theorem scheduled_pends (now : Time) (f : Bytes) (src : DevId) (rs : List Recv) :
    scheduled (rs.map (Recv.pend now f src)) = rs.map (Recv.arr now f src) := by
  induction rs with
  | nil => rfl
  | cons r rs ih =>
    unfold scheduled at ih ⊢
    simp [ih, Recv.pend, Recv.arr, arrivalOf]

/-- What one operation does to hand-overs, receptions and scheduled receptions. -/
inductive ArriveStep (s s' : Sys) : Prop where
  | quiet (h1 : announced (newLog s s') = []) (h2 : happened (newLog s s') = [])
      (h3 : scheduled s'.pending = scheduled s.pending)
  | recv (a : Arrival) (h1 : announced (newLog s s') = []) (h2 : happened (newLog s s') = [a])
      (h3 : scheduled s.pending = a :: scheduled s'.pending) (h4 : a.time = s'.now)
  | tx (as : List Arrival) (h1 : announced (newLog s s') = as) (h2 : happened (newLog s s') = [])
      (h3 : (scheduled s'.pending).Perm (as ++ scheduled s.pending))
      (ps l : List Pending) (h4 : s'.pending = insertAll ps l) (h5 : SortedP l)
      (h6 : scheduled l = scheduled s.pending) (h7 : scheduled ps = as)

theorem arriveStep_step {E : Env} {s s' : Sys} {op : Op} (hi : Inv s) (hw : Wired s) (h : step E s op = .ok s') :
    ArriveStep s s' := by
  have hnl : ∀ l, s'.log = s.log ++ l → newLog s s' = l := by
    intro l hl; unfold newLog; rw [hl, List.drop_left]
  cases netStep_step hi hw h with
  | quiet l hlog hl hp =>
    replace hl := hl.air
    rw [← hnl l hlog] at hl
    refine .quiet (announced_airFree hl) (happened_airFree hl) ?_
    rcases hp with hp | ⟨d, dest, hp⟩
    · rw [hp]
    · rw [hp]; rfl
  | recv d g sr rx l hop hp hlog hl hd hc hcall =>
    have hfree := airFree_rxEvs s'.now hl
    have hnl' := hnl _ hlog
    refine .recv ⟨s'.now, d, g, sr⟩ ?_ ?_ ?_ rfl
    · rw [hnl']; exact (announced_airFree hfree : _)
    · rw [hnl']
      have := happened_airFree hfree
      unfold happened at this ⊢
      rw [List.filterMap_cons]
      simp only [this]
    · rw [hp]; rfl
  | tx d g dest c' rs b ps l1 l2 hchan hrs hb hps hp hlog hl1 hl2 hd hc =>
    replace hl1 := hl1.air
    replace hl2 := hl2.air
    have hnl' := hnl _ hlog
    refine .tx (rs.map (Recv.arr s'.now g d)) ?_ ?_ ?_ (rs.map (Recv.pend s'.now g d))
      (insertPending ⟨s'.now + (E.txTime (s.dev d).rate g.length + (s.dev d).gap), .txComplete d dest⟩ ps)
      hp ?_ ?_ (scheduled_pends s'.now g d rs)
    · rw [hnl']
      simp only [announced_append, announced_airFree hl1, announced_airFree hl2, announced_entries]
      cases b <;> simp [announced]
    · rw [hnl']
      simp only [happened_append, happened_airFree hl1, happened_airFree hl2, happened_entries]
      cases b <;> simp [happened]
    · rw [hp]
      have h1 := (insertAll_perm (rs.map (Recv.pend s'.now g d))
        (insertPending ⟨s'.now + (E.txTime (s.dev d).rate g.length + (s.dev d).gap), .txComplete d dest⟩ ps)).filterMap
        arrivalOf
      rw [List.filterMap_append] at h1
      have h2 := scheduled_pends s'.now g d rs
      unfold scheduled at h2 ⊢
      rw [h2, filterMap_insertPending_none (by rfl)] at h1
      have h3 : ps.filterMap arrivalOf = s.pending.filterMap arrivalOf := by
        rcases hps with ⟨hps, _⟩ | ⟨_, hps, _⟩
        · rw [hps]
        · rw [hps]; rfl
      rw [h3] at h1
      exact h1
    · apply sorted_insertPending
      have hs := hi.clock.sorted
      rcases hps with ⟨hps, _⟩ | ⟨_, hps, _⟩
      · rw [hps]; exact hs
      · rw [hps] at hs; exact (List.pairwise_cons.mp hs).2
    · unfold scheduled
      rw [filterMap_insertPending_none (by rfl)]
      rcases hps with ⟨hps, _⟩ | ⟨_, hps, _⟩
      · rw [hps]
      · rw [hps]; rfl

/-- Receptions that happened or are scheduled are those announced. -/
def Accounted (s : Sys) : Prop := (happened s.log ++ scheduled s.pending).Perm (announced s.log)

/-- Everything about reachable states that needs no assumption on the history. -/
structure Good (s : Sys) : Prop where
  inv : Inv s
  wired : Wired s
  acc : Accounted s

theorem good_initial {s : Sys} (h : Initial s) : Good s :=
  ⟨inv_initial h, wired_initial h, by unfold Accounted; rw [h.log, h.pending]; exact List.Perm.refl _⟩

theorem good_step {E : Env} {s s' : Sys} {op : Op} (hg : Good s) (h : step E s op = .ok s') : Good s' := by
  refine ⟨inv_step hg.inv h, wired_step hg.wired h, ?_⟩
  have hacc := hg.acc
  unfold Accounted at hacc ⊢
  rw [log_prefix_step hg.inv hg.wired h, happened_append, announced_append]
  cases arriveStep_step hg.inv hg.wired h with
  | quiet h1 h2 h3 => rw [h1, h2, h3]; simpa using hacc
  | recv a h1 h2 h3 _ =>
    rw [h1, h2]
    rw [h3] at hacc
    simpa using hacc
  | tx as h1 h2 h3 _ _ _ _ _ _ =>
    rw [h1, h2, List.append_nil]
    calc (happened s.log ++ scheduled s'.pending).Perm (happened s.log ++ (as ++ scheduled s.pending)) := h3.append_left _
      _ |>.Perm (happened s.log ++ (scheduled s.pending ++ as)) := (List.perm_append_comm).append_left _
      _ |>.Perm _ := by rw [← List.append_assoc]; exact hacc.append_right _

theorem good_exec {E : Env} {s s' : Sys} {ops : List Op} (h0 : Initial s) (h : exec E s ops = .ok s') : Good s' :=
  exec_induct (P := Good) (fun _ _ _ hP hs => good_step hP hs) (good_initial h0) h

/-! ### Attached once -/

/-- The index of a channel lists every device at most once if every device is attached at most once. -/
def OnceInv (c : ChanId) (s : Sys) : Prop :=
  (s.chan c).link.Nodup →
    (((s.chan c).gnd ++ (s.chan c).sat).map Prod.snd).Nodup ∧
    ∀ x ∈ ((s.chan c).gnd ++ (s.chan c).sat).map Prod.snd, x ∈ (s.chan c).link

theorem mapInsert_snd (a : Mac48) (d : DevId) (m : List (Mac48 × DevId)) :
    ∃ k, k.Sublist (m.map Prod.snd) ∧ ((mapInsert a d m).map Prod.snd).Perm (d :: k) := by
  induction m with
  | nil => exact ⟨[], List.Sublist.refl _, List.Perm.refl _⟩
  | cons p rest ih =>
    obtain ⟨b, e⟩ := p
    simp only [mapInsert]
    split
    · exact ⟨rest.map Prod.snd, List.Sublist.cons _ (List.Sublist.refl _), List.Perm.refl _⟩
    · split
      · exact ⟨_, List.Sublist.refl _, List.Perm.refl _⟩
      · obtain ⟨k, h1, h2⟩ := ih
        exact ⟨e :: k, h1.cons_cons _, (h2.cons e).trans (List.Perm.swap _ _ _)⟩

theorem onceInv_step {E : Env} {s s' : Sys} {op : Op} {c : ChanId} (hi : OnceInv c s) (h : step E s op = .ok s') :
    OnceInv c s' := by
  rcases chan_step h with h1 | ⟨d, c', rfl⟩ | ⟨c', slot, rfl⟩
  · unfold OnceInv; rw [h1]; exact hi
  · obtain ⟨g, t, hgt, rfl⟩ := attach_ok h
    by_cases hc : c = c'
    · subst hc
      unfold OnceInv
      simp only [if_true]
      intro hnd
      rw [List.nodup_append] at hnd
      obtain ⟨hnd, -, hd⟩ := hnd
      have hdl : d ∉ (s.chan c).link := fun hm => hd d hm d (by simp) rfl
      obtain ⟨h1, h2⟩ := hi hnd
      have hdi : d ∉ ((s.chan c).gnd ++ (s.chan c).sat).map Prod.snd := fun hm => hdl (h2 d hm)
      have fin : ∀ l : List DevId, (∃ k, k.Sublist (((s.chan c).gnd ++ (s.chan c).sat).map Prod.snd) ∧ l.Perm (d :: k)) →
          l.Nodup ∧ ∀ x ∈ l, x ∈ (s.chan c).link ++ [d] := by
        rintro l ⟨k, hk, hl⟩
        constructor
        · rw [hl.nodup_iff, List.nodup_cons]
          exact ⟨fun hm => hdi (hk.subset hm), h1.sublist hk⟩
        · intro x hx
          rcases List.mem_cons.mp (hl.mem_iff.mp hx) with rfl | hx
          · simp
          · simp [h2 x (hk.subset hx)]
      rcases hgt with ⟨_, rfl, rfl⟩ | ⟨_, _, ⟨_, rfl, rfl⟩ | ⟨_, rfl, rfl⟩⟩
      · exact ⟨h1, fun x hx => by simp [h2 x hx]⟩
      · obtain ⟨k, k1, k2⟩ := mapInsert_snd (s.dev d).addr d (s.chan c).gnd
        apply fin
        refine ⟨k ++ (s.chan c).sat.map Prod.snd, ?_, ?_⟩
        · rw [List.map_append]; exact k1.append (List.Sublist.refl _)
        · rw [List.map_append]; exact k2.append_right _
      · obtain ⟨k, k1, k2⟩ := mapInsert_snd (s.dev d).addr d (s.chan c).sat
        apply fin
        refine ⟨(s.chan c).gnd.map Prod.snd ++ k, ?_, ?_⟩
        · rw [List.map_append]; exact (List.Sublist.refl _).append k1
        · rw [List.map_append]
          exact (k2.append_left _).trans List.perm_middle
    · unfold OnceInv
      simp only [hc, if_false]
      exact hi
  · obtain ⟨g, t, _, _, hgt, _, _, hch, _⟩ := detach_view h
    unfold OnceInv
    rw [hch]
    by_cases hc : c = c'
    · subst hc
      simp only [if_true]
      intro hnd
      obtain ⟨h1, h2⟩ := hi hnd
      have hsub : ((g ++ t).map Prod.snd).Sublist (((s.chan c).gnd ++ (s.chan c).sat).map Prod.snd) := by
        rcases hgt with ⟨_, rfl, rfl⟩ | ⟨_, d, _, rfl, rfl⟩
        · exact List.Sublist.refl _
        · exact ((List.filter_sublist).append (List.filter_sublist)).map _
      exact ⟨h1.sublist hsub, fun x hx => h2 x (hsub.subset hx)⟩
    · simp only [hc, if_false]
      exact hi

theorem onceInv_exec {E : Env} {s s' : Sys} {ops : List Op} (h0 : Initial s) (h : exec E s ops = .ok s')
    (c : ChanId) : OnceInv c s' := by
  refine exec_induct (P := OnceInv c) (fun _ _ _ hP hs => onceInv_step hP hs) ?_ h
  intro _
  rw [(h0.chans c).2.1, (h0.chans c).2.2]
  simp

theorem link_step {E : Env} {s s' : Sys} {op : Op} (h : step E s op = .ok s') (c : ChanId) :
    ∃ l, (s'.chan c).link = (s.chan c).link ++ l := by
  rcases chan_step h with h1 | ⟨d, c', rfl⟩ | ⟨c', slot, rfl⟩
  · exact ⟨[], by rw [h1]; simp⟩
  · obtain ⟨g, t, _, rfl⟩ := attach_ok h
    by_cases hc : c = c'
    · subst hc; exact ⟨[d], by simp⟩
    · exact ⟨[], by simp [hc]⟩
  · obtain ⟨_, _, _, _, _, _, _, hch, _⟩ := detach_view h
    exact ⟨[], by rw [hch]; by_cases hc : c = c' <;> simp [hc]⟩

theorem audience_nodup {s : Sys} {c : ChanId} {slot : Nat} {dest : Addr} (hi : OnceInv c s)
    (hnd : (s.chan c).link.Nodup) : (audience s c slot dest).Nodup := by
  obtain ⟨h1, _⟩ := hi hnd
  rw [List.map_append, List.nodup_append] at h1
  unfold audience
  simp only
  split
  · exact List.nodup_nil
  · split
    · split
      · exact h1.2.1
      · split
        · exact h1.1
        · exact List.nodup_nil
    · split
      · simp
      · split
        · exact hnd.sublist (List.eraseIdx_sublist _ _)
        · exact List.nodup_nil

/-! ### Order -/

theorem insertAll_ordered {α : Type} {g : Pending → Option α} {ps l : List Pending} (hs : SortedP l)
    (h : ∀ q ∈ l, (g q).isSome → ∀ p ∈ ps, (g p).isSome → q.time ≤ p.time)
    (hp : ps.Pairwise (fun a b => (g a).isSome → (g b).isSome → a.time ≤ b.time)) :
    (insertAll ps l).filterMap g = l.filterMap g ++ ps.filterMap g := by
  induction ps generalizing l with
  | nil => simp
  | cons p ps ih =>
    have hp' := List.pairwise_cons.mp hp
    rw [insertAll_cons, ih (sorted_insertPending hs) ?_ hp'.2]
    · cases hg : g p with
      | none => rw [filterMap_insertPending_none hg, List.filterMap_cons, hg]
      | some x =>
        rw [filterMap_insertPending_some hg l (fun q hq hgq => h q hq hgq p (by simp) (by simp [hg])) hs,
          List.filterMap_cons, hg]
        simp
    · intro q hq hgq p' hp2 hgp
      rcases mem_insertPending.mp hq with rfl | hq
      · exact hp'.1 p' hp2 hgq hgp
      · exact h q hq hgq p' (by simp [hp2]) hgp

/-- Receptions between two devices among pending events. -/
def pairOf (src dst : DevId) (p : Pending) : Option Arrival :=
  (arrivalOf p).filter (fun a => decide (a.src = src) && decide (a.dst = dst))

theorem between_scheduled (src dst : DevId) (ps : List Pending) :
    between src dst (scheduled ps) = ps.filterMap (pairOf src dst) := by
  unfold between scheduled pairOf
  induction ps with
  | nil => rfl
  | cons p ps ih =>
    simp only [List.filterMap_cons]
    cases h : arrivalOf p with
    | none => simpa using ih
    | some a =>
      by_cases hc : (decide (a.src = src) && decide (a.dst = dst)) = true
      · have e1 : Option.filter (fun a : Arrival => decide (a.src = src) && decide (a.dst = dst)) (some a) = some a := by
          simp only [Option.filter, hc, if_true]
        rw [e1]
        simp only [List.filter_cons, hc, if_true, ih]
      · have e1 : Option.filter (fun a : Arrival => decide (a.src = src) && decide (a.dst = dst)) (some a) = none := by
          simp only [Option.filter, hc]; rfl
        rw [e1]
        simp only [List.filter_cons, hc, ih]; rfl

theorem pairOf_some {src dst : DevId} {p : Pending} {a : Arrival} (h : pairOf src dst p = some a) : a.time = p.time := by
  unfold pairOf at h
  rw [Option.filter_eq_some_iff] at h
  have h := h.1
  unfold arrivalOf at h
  split at h
  · injection h with h; rw [← h]
  · cases h

@[simp] theorem between_append (src dst : DevId) (l m : List Arrival) :
    between src dst (l ++ m) = between src dst l ++ between src dst m := by simp [between]

theorem between_perm {src dst : DevId} {l m : List Arrival} (h : l.Perm m) :
    (between src dst l).Perm (between src dst m) := h.filter _

/-- Receptions in the order of the hand-overs as long as arrival times do not decrease. -/
theorem ordered_step {E : Env} {s s' : Sys} {op : Op} {src dst : DevId} (hg : Good s) (h : step E s op = .ok s')
    (hmono : (between src dst (announced s'.log)).Pairwise (fun a b => a.time ≤ b.time))
    (hi : between src dst (happened s.log) ++ between src dst (scheduled s.pending) = between src dst (announced s.log)) :
    between src dst (happened s'.log) ++ between src dst (scheduled s'.pending) = between src dst (announced s'.log) := by
  have hpre := log_prefix_step hg.inv hg.wired h
  rw [hpre, announced_append, between_append] at hmono
  rw [hpre, happened_append, announced_append, between_append, between_append]
  cases arriveStep_step hg.inv hg.wired h with
  | quiet h1 h2 h3 => rw [h1, h2, h3]; simpa [show between src dst [] = [] from rfl] using hi
  | recv a h1 h2 h3 _ =>
    rw [h1, h2]
    rw [h3] at hi
    rw [← hi, show a :: scheduled s'.pending = [a] ++ scheduled s'.pending from rfl, between_append]
    simp [between]
  | tx as h1 h2 h3 ps l h4 h5 h6 h7 =>
    rw [h1] at hmono
    rw [h1, h2, h4, between_scheduled]
    have hl : l.filterMap (pairOf src dst) = between src dst (scheduled s.pending) := by
      rw [← between_scheduled, h6]
    have hps : ps.filterMap (pairOf src dst) = between src dst as := by
      rw [← between_scheduled, h7]
    rw [List.pairwise_append] at hmono
    obtain ⟨-, m2, m3⟩ := hmono
    rw [insertAll_ordered h5, hl, hps]
    · rw [← List.append_assoc, show between src dst [] = [] from rfl, List.append_nil, hi]
    · intro q hq hgq p hp hgp
      obtain ⟨a, ha⟩ := Option.isSome_iff_exists.mp hgq
      obtain ⟨b, hb⟩ := Option.isSome_iff_exists.mp hgp
      rw [← pairOf_some ha, ← pairOf_some hb]
      apply m3
      · rw [← hi, List.mem_append]
        right
        rw [← hl]
        exact List.mem_filterMap.mpr ⟨q, hq, ha⟩
      · rw [← hps]
        exact List.mem_filterMap.mpr ⟨p, hp, hb⟩
    · rw [← hps, List.pairwise_filterMap] at m2
      refine m2.imp ?_
      intro a b hab hga hgb
      obtain ⟨x, hx⟩ := Option.isSome_iff_exists.mp hga
      obtain ⟨y, hy⟩ := Option.isSome_iff_exists.mp hgb
      have := hab x hx y hy
      rw [pairOf_some hx, pairOf_some hy] at this
      exact this

theorem pairwise_prefix_step {E : Env} {s s' : Sys} {op : Op} {src dst : DevId} (hg : Good s) (h : step E s op = .ok s')
    (hmono : (between src dst (announced s'.log)).Pairwise (fun a b => a.time ≤ b.time)) :
    (between src dst (announced s.log)).Pairwise (fun a b => a.time ≤ b.time) := by
  rw [log_prefix_step hg.inv hg.wired h, announced_append, between_append, List.pairwise_append] at hmono
  exact hmono.1

theorem ordered_exec {E : Env} {s s' : Sys} {ops : List Op} {src dst : DevId} (hg : Good s)
    (h : exec E s ops = .ok s')
    (hi : between src dst (happened s.log) ++ between src dst (scheduled s.pending) = between src dst (announced s.log))
    (hmono : (between src dst (announced s'.log)).Pairwise (fun a b => a.time ≤ b.time)) :
    between src dst (happened s'.log) ++ between src dst (scheduled s'.pending) = between src dst (announced s'.log) := by
  have key : ∀ (ops : List Op) (s : Sys), Good s → exec E s ops = .ok s' →
      (between src dst (announced s.log)).Pairwise (fun a b => a.time ≤ b.time) ∧
      (between src dst (happened s.log) ++ between src dst (scheduled s.pending) = between src dst (announced s.log) →
       between src dst (happened s'.log) ++ between src dst (scheduled s'.pending) = between src dst (announced s'.log)) := by
    intro ops
    induction ops with
    | nil => intro s _ h; injection h with h; subst h; exact ⟨hmono, id⟩
    | cons op ops ih =>
      intro s hg h
      simp only [exec] at h
      rw [Outcome.bind_eq_ok] at h
      obtain ⟨s1, h1, h2⟩ := h
      obtain ⟨k1, k2⟩ := ih s1 (good_step hg h1) h2
      exact ⟨pairwise_prefix_step hg h1 k1, fun hi => k2 (ordered_step hg h1 k1 hi)⟩
  exact (key ops s hg h).2 hi

/-! ### Log times -/

/-- The log is in order of time and not in the future. -/
def LogSorted (s : Sys) : Prop := s.log.Pairwise (fun a b => a.1 ≤ b.1) ∧ ∀ e ∈ s.log, e.1 ≤ s.now

theorem logSorted_step {E : Env} {s s' : Sys} {op : Op} (hi : Inv s) (hl : LogSorted s) (h : step E s op = .ok s') :
    LogSorted s' := by
  obtain ⟨hn, l, h1, h2⟩ := (clock_step hi.clock h).2
  unfold LogSorted
  rw [h1]
  constructor
  · rw [List.pairwise_append]
    refine ⟨hl.1, ?_, ?_⟩
    · rw [List.pairwise_iff_forall_sublist]
      intro a b hab
      have ha := hab.subset (show a ∈ [a, b] by simp)
      have hb := hab.subset (show b ∈ [a, b] by simp)
      rw [h2 a ha, h2 b hb]; exact Nat.le_refl _
    · intro a ha b hb
      rw [h2 b hb]
      exact Nat.le_trans (hl.2 a ha) hn
  · intro e he
    rcases List.mem_append.mp he with he | he
    · exact Nat.le_trans (hl.2 e he) hn
    · rw [h2 e he]; exact Nat.le_refl _

theorem logSorted_exec {E : Env} {s s' : Sys} {ops : List Op} (h0 : Initial s) (h : exec E s ops = .ok s') :
    LogSorted s' :=
  (exec_induct (P := fun x => Inv x ∧ LogSorted x) (fun _ _ _ hP hs => ⟨inv_step hP.1 hs, logSorted_step hP.1 hP.2 hs⟩)
    ⟨inv_initial h0, by rw [LogSorted, h0.log]; simp⟩ h).2

theorem node_exec {E : Env} {s s' : Sys} {ops : List Op} (h : exec E s ops = .ok s') (d : DevId) :
    (s'.dev d).node = (s.dev d).node := by
  refine exec_induct (P := fun x => (x.dev d).node = (s.dev d).node) ?_ rfl h
  intro u u' op hu hs
  rw [← hu]
  rcases cfg_step hs with hc | ⟨x, c, rfl⟩
  · exact (hc d).2.2.1
  · obtain ⟨g, t, _, rfl⟩ := attach_ok hs
    by_cases hx : d = x <;> simp [hx]

end Verif
