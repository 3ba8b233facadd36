import Verif.Lemmas.NoFault
import Verif.Props.Receive
import Verif.Props.NoFault
import Verif.Spec.EndToEnd
/-! One packet from `Send` to the receive callbacks. -/

namespace Verif
open Spec

theorem upcallLog_append (x : DevId) (l m : List (Time × Ev)) : upcallLog x (l ++ m) = upcallLog x l ++ upcallLog x m := by
  simp [upcallLog, upcalls]

theorem upcallLog_events (x : DevId) (now : Time) (l : List Ev) : upcallLog x (l.map fun e => (now, e)) = upcalls x l := by
  unfold upcallLog
  rw [List.map_map]
  congr 1
  exact List.map_id l

theorem upcallLog_mute (x : DevId) {l : List (Time × Ev)} (h : ∀ e ∈ l, ∀ d p q a, e.2 ≠ .rxCallback d p q a) :
    upcallLog x l = [] := by
  unfold upcallLog upcalls
  rw [List.filterMap_eq_nil_iff]
  intro e he
  obtain ⟨y, hy, rfl⟩ := List.mem_map.mp he
  have := h y hy
  cases hz : y.2
  case rxCallback d p q a => exact absurd hz (this d p q a)
  all_goals rfl

theorem upcalls_other {x d : DevId} (hx : x ≠ d) {l : List Ev} (hl : ∀ e ∈ l, RxEv d e) : upcalls x l = [] := by
  unfold upcalls
  rw [List.filterMap_eq_nil_iff]
  intro e he
  have := hl e he
  cases e
  case rxCallback y p q a =>
    have hy : y = d := by simpa [RxEv] using this
    have : ¬ y = x := fun h => hx (h.symm.trans hy)
    simp [this]
  all_goals rfl

open Classical in
/-- What a pending reception of a frame for `m` will pass up at `x`. -/
noncomputable def futureUp (v : Dev) (x d : DevId) (m : Mac48) (up : Bytes × UInt16 × Mac48) (q : Pending) :
    Option (Bytes × UInt16 × Mac48) :=
  match q.act with
  | .receive y _ _ pw => if y = x ∧ TakesUp v x d m pw then some up else none
  | .txComplete .. => none

theorem futureUp_congr {v w : Dev} (h : SameCfg v w) (x d : DevId) (m : Mac48) (up : Bytes × UInt16 × Mac48) :
    futureUp v x d m up = futureUp w x d m up := by
  have : ∀ pw, TakesUp v x d m pw ↔ TakesUp w x d m pw := by
    intro pw
    unfold TakesUp effectivePower
    rw [h.rxThreshold, h.leo, h.rxGain, h.rxLoss, h.addr]
  funext q
  unfold futureUp
  split
  · rename_i y _ _ pw _
    by_cases hh : y = x ∧ TakesUp w x d m pw
    · rw [if_pos hh, if_pos ⟨hh.1, (this pw).mpr hh.2⟩]
    · rw [if_neg hh, if_neg fun h => hh ⟨h.1, (this pw).mp h.2⟩]
  · rfl

/-- Only receptions of frame `f` of `d` and completions of devices without waiting frames are pending. -/
def WindingDown (s : Sys) (d : DevId) (f : Bytes) : Prop :=
  ∀ q ∈ s.pending, (∃ x pw, q.act = .receive x f d pw) ∨ ∃ d' dest, q.act = .txComplete d' dest ∧ (s.dev d').queue = []

theorem winding_run {E : Env} {s s' : Sys} {d : DevId} {f p : Bytes} {proto : UInt16} {sa m : Mac48}
    (hE : ErrorFree E) (hdec : decode E.fcs f = .ok (.good p proto sa m))
    (hw : WindingDown s d f) (h : run E s = .ok s') (x : DevId) :
    WindingDown s' d f ∧ SameCfg (s'.dev x) (s.dev x) ∧
      upcallLog x s'.log ++ s'.pending.filterMap (futureUp (s'.dev x) x d m (p, proto, sa)) =
      upcallLog x s.log ++ s.pending.filterMap (futureUp (s.dev x) x d m (p, proto, sa)) := by
  unfold run at h
  split at h
  · injection h with h; subst h
    exact ⟨hw, SameCfg.refl _, rfl⟩
  · rename_i q ps hp
    obtain ⟨t, a⟩ := q
    have hhead := hw ⟨t, a⟩ (by rw [hp]; exact List.mem_cons_self)
    have htail : ∀ q ∈ ps, q ∈ s.pending := fun q hq => by rw [hp]; exact List.mem_cons_of_mem _ hq
    cases a with
    | receive y g src pw =>
      simp only [Action.receive.injEq, reduceCtorEq, false_and, exists_false, or_false] at hhead
      obtain ⟨y', pw', hy', hg, hsrc, hpw'⟩ := hhead
      subst hg; subst hsrc
      simp only [dispatch] at h
      obtain ⟨l, hs', hC⟩ := C14_receive_filter h hdec
      simp only [show ∀ a b c e, E.corrupt a b c e = false from hE, Audible, and_true] at hC
      obtain ⟨l', hl', hs''⟩ := receive_ok h
      have hll : l = l' := by
        have e := hs'.symm.trans hs''
        injection e with _ _ _ _ e
        have := List.append_cancel_left e
        injection this with _ this
        exact (List.map_injective_iff.mpr (fun a b hab => by injection hab)) this
      subst hll
      subst hs'
      refine ⟨fun q hq => hw q (htail q hq), SameCfg.refl _, ?_⟩
      simp only
      rw [upcallLog_append, hp, List.filterMap_cons, List.append_assoc]
      congr 1
      rw [show ((t, Ev.recvCall y g src pw) :: l.map (fun e => (t, e))) =
        [(t, Ev.recvCall y g src pw)] ++ l.map (fun e => (t, e)) from rfl, upcallLog_append, upcallLog_events]
      rw [show upcallLog x [(t, Ev.recvCall y g src pw)] = [] from rfl, List.nil_append]
      by_cases hxy : x = y
      · subst hxy
        by_cases ht : TakesUp (s.dev x) x src m pw
        · rw [hC.1 ht, show futureUp (s.dev x) x src m (p, proto, sa) ⟨t, .receive x g src pw⟩ = some (p, proto, sa) from
            if_pos ⟨rfl, ht⟩]
          rfl
        · rw [hC.2.1 ht, show futureUp (s.dev x) x src m (p, proto, sa) ⟨t, .receive x g src pw⟩ = none from
            if_neg fun h => ht h.2]
          rfl
      · rw [upcalls_other hxy hl', show futureUp (s.dev x) x src m (p, proto, sa) ⟨t, .receive y g src pw⟩ = none from
            if_neg fun h => hxy h.1.symm]
        rfl
    | txComplete d' dest =>
      simp only [reduceCtorEq, exists_false, false_or, Action.txComplete.injEq] at hhead
      obtain ⟨d2, dest2, ⟨rfl, rfl⟩, hq⟩ := hhead
      simp only [dispatch] at h
      obtain ⟨hb, _, g, hcur, hcase⟩ := transmitComplete_ok h
      rcases hcase with ⟨_, rfl⟩ | ⟨g', rest, hq', _⟩
      · have hsame : ∀ x, SameCfg (if x = d' then { s.dev d' with busy := false, cur := none } else s.dev x) (s.dev x) := by
          intro x
          by_cases hx : x = d'
          · subst hx; simp only [if_true]; exact ⟨rfl, rfl, rfl, rfl, rfl, rfl, rfl, rfl, rfl, rfl, rfl, rfl, rfl, rfl, rfl, rfl, rfl, rfl⟩
          · simp only [hx, if_false]; exact SameCfg.refl _
        refine ⟨?_, hsame x, ?_⟩
        · intro q hqm
          rcases hw q (htail q hqm) with h | ⟨d3, dest3, h1, h2⟩
          · exact Or.inl h
          · refine Or.inr ⟨d3, dest3, h1, ?_⟩
            by_cases hd : d3 = d' <;> simp [hd, hq] <;> simpa [hd] using h2
        · rw [hp, List.filterMap_cons]
          have hf := futureUp_congr (hsame x) x d m (p, proto, sa)
          simp only at hf ⊢
          rw [hf, upcallLog_append, show upcallLog x [(t, Ev.phyTxEnd d' g)] = [] from rfl, List.append_nil]
          rfl
      · simp only at hq'
        rw [hq] at hq'; cases hq'

theorem winding_exec {E : Env} {d : DevId} {f p : Bytes} {proto : UInt16} {sa m : Mac48}
    (hE : ErrorFree E) (hdec : decode E.fcs f = .ok (.good p proto sa m)) (n : Nat) {s s' : Sys}
    (hw : WindingDown s d f) (h : exec E s (List.replicate n .run) = .ok s') (x : DevId) :
      upcallLog x s'.log ++ s'.pending.filterMap (futureUp (s'.dev x) x d m (p, proto, sa)) =
      upcallLog x s.log ++ s.pending.filterMap (futureUp (s.dev x) x d m (p, proto, sa)) := by
  induction n generalizing s with
  | zero => injection h with h; subst h; rfl
  | succ n ih =>
    rw [List.replicate_succ] at h
    simp only [exec] at h
    rw [Outcome.bind_eq_ok] at h
    obtain ⟨s1, h1, h2⟩ := h
    obtain ⟨hw1, _, he⟩ := winding_run hE hdec hw h1 x
    rw [ih hw1 h2, he]

theorem reachDev_power {E : Env} {s : Sys} {c : ChanId} {src dst : DevId} {t t' : Time} {y : Time × Power}
    (h : reachDev E s c src t dst = some y) : ∃ y', reachDev E s c src t' dst = some y' ∧ y'.2 = y.2 := by
  unfold reachDev at h ⊢
  split at h
  · rename_i ns nd h1 h2
    unfold reach at h ⊢
    split at h
    · rename_i h3 h4
      exact ⟨y, h, rfl⟩
    · refine ⟨_, rfl, ?_⟩
      injection h with h; subst h; rfl
  · cases h

theorem recvOf_eq (E : Env) (s : Sys) (c : ChanId) (src : DevId) (t : Time) (dst : DevId) :
    recvOf E s c src t dst = (reachDev E s c src t dst).map fun x => ⟨dst, x.1, x.2⟩ := by
  unfold recvOf reachDev
  cases (s.dev src).node <;> cases (s.dev dst).node <;> rfl

/-- All elements of the list are the same, their number is the number of occurrences of `x` if `x` hears. -/
theorem future_replicate {E : Env} {s : Sys} {c : ChanId} {d x : DevId} {m : Mac48} {up : Bytes × UInt16 × Mac48}
    {f : Bytes} {now t : Time} (l : List DevId) [Decidable (Hears E s c d m x)] :
    ((l.filterMap (recvOf E s c d t)).map (Recv.pend now f d)).filterMap (futureUp (s.dev x) x d m up) =
      if Hears E s c d m x then List.replicate (l.count x) up else [] := by
  induction l with
  | nil => simp
  | cons a l ih =>
    rw [List.filterMap_cons, recvOf_eq]
    cases hr : reachDev E s c d t a with
    | none =>
      simp only [Option.map_none]
      rw [ih]
      by_cases hax : a = x
      · subst hax
        have : ¬ Hears E s c d m a := by
          rintro ⟨y, hy, _⟩
          obtain ⟨y', hy', _⟩ := reachDev_power (t' := t) hy
          rw [hr] at hy'; cases hy'
        rw [if_neg this, if_neg this]
      · rw [List.count_cons_of_ne (by simpa using hax)]
    | some y =>
      simp only [Option.map_some, List.map_cons, List.filterMap_cons]
      rw [ih]
      obtain ⟨y0, hy0, hp0⟩ := reachDev_power (t' := 0) hr
      by_cases hax : a = x
      · subst hax
        by_cases ht : TakesUp (s.dev a) a d m y.2
        · have hh : Hears E s c d m a := ⟨y0, hy0, by rw [hp0]; exact ht⟩
          rw [show futureUp (s.dev a) a d m up (Recv.pend now f d ⟨a, y.1, y.2⟩) = some up from if_pos ⟨rfl, ht⟩]
          simp only [if_pos hh, List.count_cons_self, List.replicate_succ]
        · have hh : ¬ Hears E s c d m a := by
            rintro ⟨z, hz, hz2⟩
            rw [hy0] at hz; injection hz with hz; subst hz
            rw [hp0] at hz2
            exact ht hz2
          rw [show futureUp (s.dev a) a d m up (Recv.pend now f d ⟨a, y.1, y.2⟩) = none from if_neg fun h => ht h.2]
          simp only [if_neg hh]
      · rw [show futureUp (s.dev x) x d m up (Recv.pend now f d ⟨a, y.1, y.2⟩) = none from if_neg fun h => hax h.1]
        rw [List.count_cons_of_ne hax]

theorem future_perm {v : Dev} {x d : DevId} {m : Mac48} {up : Bytes × UInt16 × Mac48} {l l' : List Pending} (h : l.Perm l') :
    l.filterMap (futureUp v x d m up) = l'.filterMap (futureUp v x d m up) := by
  have hp := h.filterMap (futureUp v x d m up)
  have hall : ∀ l : List Pending, ∀ b ∈ l.filterMap (futureUp v x d m up), b = up := by
    intro l b hb
    obtain ⟨q, _, hq⟩ := List.mem_filterMap.mp hb
    unfold futureUp at hq
    split at hq
    · split at hq
      · injection hq with hq; exact hq.symm
      · cases hq
    · cases hq
  have h1 := List.eq_replicate_of_mem (hall l)
  have h2 := List.eq_replicate_of_mem (hall l')
  rw [h1, h2, hp.length_eq]

open Classical in
theorem one_packet {E : Env} {s : Sys} {d : DevId} {p : Bytes} {proto : UInt16} {m : Mac48} (hE : ErrorFree E)
    (hf : Fit E s) {K : Nat} (hb : Bounded K s) (hp : s.pending = []) (hup : (s.dev d).linkUp = true)
    (hcap : 0 < (s.dev d).cap) (hlen : p.length ≤ 1492) :
    ∃ c n s', (s.dev d).chan = some c ∧ exec E s (.send d p (.mac m) proto :: List.replicate n .run) = .ok s' ∧
      s'.pending = [] ∧ ∀ x, upcallLog x s'.log = upcallLog x s.log ++
        if Hears E s c d m x then
          List.replicate ((audience s c (s.dev d).chanSlot (.mac m)).count x) (p, proto, (s.dev d).addr) else [] := by
  have hproper : Proper s (.send d p (.mac m) proto) := ⟨True.intro, (by intro h; cases h), (by omega : p.length ≤ 65527)⟩
  obtain ⟨s1, h1⟩ := fit_progress hf hproper
  have hf1 := fit_step hf hproper h1
  have hex1 : exec E s [.send d p (.mac m) proto] = .ok s1 := by simp [exec, h1]
  have hb1 := bounded_exec hb hex1
  obtain ⟨s2, h2, hf2⟩ := fit_exec hf1 (C61_run_is_proper (E := E) (s := s1)
    (pot (K + 1) (fun d => (s1.dev d).queue) s1.pending))
  have hpe := exec_run_drains _ hf1.inv hb1 (Nat.le_refl _) h2
  have hdec : decode E.fcs (addHeader E.fcs p (s.dev d).addr m proto) = .ok (.good p proto (s.dev d).addr m) := by
    rw [decode_addHeader, if_pos (by omega)]
  have hidle : ∀ x, (s.dev x).busy = false ∧ (s.dev x).queue = [] := by
    intro x
    have hb : (s.dev x).busy = false := by
      cases hbz : (s.dev x).busy with
      | false => rfl
      | true =>
        obtain ⟨f, t, dest, _, ht⟩ := (hf.inv.dev x).busy hbz
        rw [hp] at ht; cases ht
    exact ⟨hb, ((hf.inv.dev x).ready hb).2.1⟩
  simp only [step] at h1
  rcases send_ok h1 with ⟨hl, _⟩ | ⟨_, _, m', hm', f, hff, ⟨hq, _⟩ | ⟨_, hbz, _⟩ | ⟨_, _, g, rest, s3, hg, hts, hs1⟩⟩
  · rw [hup] at hl; cases hl
  · rw [(hidle d).2] at hq; exact absurd hcap hq
  · rw [(hidle d).1] at hbz; cases hbz
  · injection hm' with hm'; subst hm'
    rw [(hidle d).2] at hg
    injection hg with hg1 hg2
    subst hg1; subst hg2
    have hcfg : ∀ x, SameCfg (if x = d then { s.dev d with queue := [] } else s.dev x) (s.dev x) := by
      intro x
      by_cases hx : x = d
      · subst hx; simp only [if_true]; exact ⟨rfl, rfl, rfl, rfl, rfl, rfl, rfl, rfl, rfl, rfl, rfl, rfl, rfl, rfl, rfl, rfl, rfl, rfl⟩
      · simp only [hx, if_false]; exact SameCfg.refl _
    obtain ⟨c, rs, b, hc, hrs, _, hs3⟩ := (fun t (h : transmitStart E t d f (.mac m) = .ok s3) hc hh => tx_view (t := t) hf.wired hc hh h) _ hts hcfg rfl
    have hpend : s1.pending = s3.pending := by rw [hs1]
    have hperm : s1.pending.Perm (rs.map (Recv.pend s.now f d) ++
        [⟨s.now + (E.txTime (s.dev d).rate f.length + (s.dev d).gap), .txComplete d (.mac m)⟩]) := by
      rw [hpend, hs3]
      simp only [txState, hp, if_true]
      exact (insertAll_perm _ _).trans (List.Perm.refl _)
    have hcfg1 : ∀ x, SameCfg (s1.dev x) (s.dev x) := by
      intro x; rw [hs1, hs3]; exact sameCfg_txState (E := E) (dest := .mac m) (c := c) (src := d) (rs := rs) (b := b) (hcfg x)
    have hqs : ∀ x, (s1.dev x).queue = [] := by
      intro x
      rw [hs1, hs3]
      by_cases hx : x = d
      · simp [txState, hx]
      · simp [txState, hx, (hidle x).2]
    have hw : WindingDown s1 d f := by
      intro q hq
      rcases List.mem_append.mp (hperm.mem_iff.mp hq) with h | h
      · obtain ⟨r, _, rfl⟩ := List.mem_map.mp h
        exact Or.inl ⟨r.dst, r.power, rfl⟩
      · simp only [List.mem_singleton] at h
        subst h
        exact Or.inr ⟨d, .mac m, rfl, hqs d⟩
    have hlog : ∀ x, upcallLog x s1.log = upcallLog x s.log := by
      intro x
      rw [hs1, hs3]
      simp only [txState]
      rw [upcallLog_append, upcallLog_append, upcallLog_append, upcallLog_append, upcallLog_append]
      rw [upcallLog_mute x (l := List.map _ rs) (by
        intro e he; obtain ⟨r, _, rfl⟩ := List.mem_map.mp he; intro _ _ _ _ h; cases h)]
      have : upcallLog x (if b = true then [] else [(s.now, Ev.phyTxDrop d f)]) = [] := by
        split <;> rfl
      rw [this]
      simp [upcallLog, upcalls]
    refine ⟨c, _, s2, hc, by simp only [exec, step, h1, Outcome.ok_bind]; exact h2, hpe, ?_⟩
    intro x
    subst hff
    have := winding_exec hE hdec _ hw h2 x
    rw [hpe, List.filterMap_nil, List.append_nil, hlog x, future_perm hperm, List.filterMap_append,
      futureUp_congr (hcfg1 x), hrs] at this
    rw [this, future_replicate (s := { s with now := s.now }), show ∀ up, [(⟨_, .txComplete d (.mac m)⟩ : Pending)].filterMap (futureUp (s.dev x) x d m up) = [] from fun _ => rfl,
      List.append_nil]

end Verif
