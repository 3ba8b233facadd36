import Verif.Lemmas.IndexInv
import Verif.Lemmas.NetFault
/-! Recipients of transmissions, in terms of the channel specification. -/

namespace Verif
open Spec

/-- A list of receivers with delay and power as receptions. -/
def toRecv (x : DevId × Time × Power) : Recv := ⟨x.1, x.2.1, x.2.2⟩

/-- The reachable ones among the listed devices, with delay and power. -/
def hits (E : Env) (s : Sys) (c : ChanId) (src : DevId) (t : Time) (ds : List DevId) :
    List (DevId × Time × Power) :=
  ds.filterMap (fun x => (reachDev E s c src t x).map (fun y => (x, y)))

theorem hits_toRecv (E : Env) (s : Sys) (c : ChanId) (src : DevId) (t : Time) (ds : List DevId) :
    ds.filterMap (recvOf E s c src t) = (hits E s c src t ds).map toRecv := by
  unfold hits
  rw [List.map_filterMap]
  congr 1
  funext x
  rw [recvOf_reachDev]
  cases reachDev E s c src t x <;> rfl

theorem mem_hits {E : Env} {s : Sys} {c : ChanId} {src : DevId} {t : Time} {ds : List DevId} {x : DevId}
    {y : Time × Power} : (x, y) ∈ hits E s c src t ds ↔ x ∈ ds ∧ reachDev E s c src t x = some y := by
  unfold hits
  rw [List.mem_filterMap]
  constructor
  · rintro ⟨z, hz, h⟩
    rw [Option.map_eq_some_iff] at h
    obtain ⟨w, h1, h2⟩ := h
    injection h2 with h2 h3
    subst h2; subst h3
    exact ⟨hz, h1⟩
  · rintro ⟨h1, h2⟩
    exact ⟨x, h1, by rw [h2]; rfl⟩

theorem hits_sublist (E : Env) (s : Sys) (c : ChanId) (src : DevId) (t : Time) (ds : List DevId) :
    ((hits E s c src t ds).map Prod.fst).Sublist ds := by
  induction ds with
  | nil => exact List.Sublist.refl _
  | cons d ds ih =>
    unfold hits at ih ⊢
    rw [List.filterMap_cons]
    cases reachDev E s c src t d with
    | none => exact ih.cons _
    | some y => exact ih.cons_cons _

theorem delivered_addRecvs (s : Sys) (c : ChanId) (f : Bytes) (src : DevId) (t : Time)
    (L : List (DevId × Time × Power)) : Delivered s (addRecvs s c f src t (L.map toRecv)) c f src t L := by
  constructor
  · simp [addRecvs, List.map_map, Recv.entry, toRecv, Function.comp_def]
  · have := insertAll_perm ((L.map toRecv).map (Recv.pend s.now f src)) s.pending
    simpa [addRecvs, List.map_map, Recv.pend, toRecv, Function.comp_def] using this
  · intro h
    exact sorted_insertAll h
  · rfl
  · rfl
  · rfl

/-- What a channel does for a valid slot. -/
theorem chanTransmit_hits {E : Env} {s s' : Sys} {c : ChanId} {f : Bytes} {slot : Nat} {dest : Addr} {t : Time}
    {b : Bool} {src : DevId} (hsrc : (s.chan c).link[slot]? = some src)
    (h : chanTransmit E s c f slot dest t = .ok (s', b)) :
    Delivered s s' c f src t (hits E s c src t (audience s c slot dest)) ∧
      (b = true ↔ hits E s c src t (audience s c slot dest) ≠ [] ∨ Floods s c slot dest) := by
  obtain ⟨src', ⟨_, h0⟩, h1, h2⟩ := chanTransmit_aud h
  have := h0 src hsrc
  subst this
  rw [hits_toRecv] at h1 h2
  rw [h1]
  refine ⟨delivered_addRecvs _ _ _ _ _ _, ?_⟩
  rw [h2]
  simp

theorem chanTransmit_invalid {E : Env} {s : Sys} {c : ChanId} {f : Bytes} {slot : Nat} {dest : Addr} {t : Time}
    (h : (s.chan c).link[slot]? = none) : chanTransmit E s c f slot dest t = .ok (s, false) := by
  unfold chanTransmit leoTransmit islTransmit
  split <;> simp [h]

theorem pairwise_map_snd {m : List (Mac48 × DevId)} {R : Mac48 → Mac48 → Prop} {g : DevId → Mac48}
    (hm : m.Pairwise (fun x y => R x.1 y.1)) (hg : ∀ x ∈ m, x.1 = g x.2) :
    (m.map Prod.snd).Pairwise (fun x y => R (g x) (g y)) := by
  rw [List.pairwise_map]
  refine List.Pairwise.imp_of_mem ?_ hm
  intro a b ha hb h
  rw [← hg a ha, ← hg b hb]; exact h

/-- The opposite side. -/
theorem audience_leo {s : Sys} {c : ChanId} {slot : Nat} {dest : Addr} {src : DevId} (hi : IndexInv c s)
    (hk : (s.chan c).kind = .leo) (hsrc : (s.chan c).link[slot]? = some src) :
    (∀ x, x ∈ audience s c slot dest ↔ src ∈ members c s.log ∧ x ∈ members c s.log ∧ (s.dev x).side ≠ (s.dev src).side) ∧
      (audience s c slot dest).Pairwise (fun x y => (s.dev x).addr.toNat < (s.dev y).addr.toNat) := by
  have hsl : src ∈ slots c s.log := by rw [← hi.link]; exact List.mem_of_getElem? hsrc
  have hG : (s.dev src).addr ∈ (s.chan c).gnd.map Prod.fst ↔ src ∈ members c s.log ∧ (s.dev src).side = .gnd := by
    rw [List.mem_map]
    constructor
    · rintro ⟨⟨a, y⟩, h1, h2⟩
      obtain ⟨h3, h4, h5⟩ := (hi.gnd hk a y).mp h1
      simp only at h2
      have := hi.inj src hsl y (hi.sub y h3) (by rw [← h5, h2])
      subst this
      exact ⟨h3, h4⟩
    · rintro ⟨h1, h2⟩
      exact ⟨_, (hi.gnd hk _ _).mpr ⟨h1, h2, rfl⟩, rfl⟩
  have hS : (s.dev src).addr ∈ (s.chan c).sat.map Prod.fst ↔ src ∈ members c s.log ∧ (s.dev src).side = .sat := by
    rw [List.mem_map]
    constructor
    · rintro ⟨⟨a, y⟩, h1, h2⟩
      obtain ⟨h3, h4, h5⟩ := (hi.sat hk a y).mp h1
      simp only at h2
      have := hi.inj src hsl y (hi.sub y h3) (by rw [← h5, h2])
      subst this
      exact ⟨h3, h4⟩
    · rintro ⟨h1, h2⟩
      exact ⟨_, (hi.sat hk _ _).mpr ⟨h1, h2, rfl⟩, rfl⟩
  unfold audience
  simp only [hsrc, hk]
  by_cases h1 : (s.dev src).addr ∈ (s.chan c).gnd.map Prod.fst
  · rw [if_pos h1]
    obtain ⟨h2, h3⟩ := hG.mp h1
    constructor
    · intro x
      rw [List.mem_map]
      constructor
      · rintro ⟨⟨a, y⟩, h4, rfl⟩
        obtain ⟨h5, h6, _⟩ := (hi.sat hk _ _).mp h4
        exact ⟨h2, h5, by rw [h6, h3]; simp⟩
      · rintro ⟨_, h5, h6⟩
        refine ⟨((s.dev x).addr, x), (hi.sat hk _ _).mpr ⟨h5, ?_, rfl⟩, rfl⟩
        rw [h3] at h6
        cases hx : (s.dev x).side
        · exact absurd hx h6
        · rfl
    · exact pairwise_map_snd (R := fun a b => a.toNat < b.toNat) (g := fun x => (s.dev x).addr) hi.sortedS
        (fun x hx => ((hi.sat hk x.1 x.2).mp hx).2.2)
  · rw [if_neg h1]
    by_cases h2 : (s.dev src).addr ∈ (s.chan c).sat.map Prod.fst
    · rw [if_pos h2]
      obtain ⟨h2, h3⟩ := hS.mp h2
      constructor
      · intro x
        rw [List.mem_map]
        constructor
        · rintro ⟨⟨a, y⟩, h4, rfl⟩
          obtain ⟨h5, h6, _⟩ := (hi.gnd hk _ _).mp h4
          exact ⟨h2, h5, by rw [h6, h3]; simp⟩
        · rintro ⟨_, h5, h6⟩
          refine ⟨((s.dev x).addr, x), (hi.gnd hk _ _).mpr ⟨h5, ?_, rfl⟩, rfl⟩
          rw [h3] at h6
          cases hx : (s.dev x).side
          · rfl
          · exact absurd hx h6
      · exact pairwise_map_snd (R := fun a b => a.toNat < b.toNat) (g := fun x => (s.dev x).addr) hi.sortedG
          (fun x hx => ((hi.gnd hk x.1 x.2).mp hx).2.2)
    · rw [if_neg h2]
      refine ⟨?_, List.Pairwise.nil⟩
      intro x
      refine iff_of_false (by simp) ?_
      rintro ⟨h3, _, _⟩
      cases hs : (s.dev src).side
      · exact h1 (hG.mpr ⟨h3, hs⟩)
      · exact h2 (hS.mpr ⟨h3, hs⟩)

/-- States reached by orderly histories. -/
structure Orderly.Reached (s : Sys) : Prop where
  inv : Inv s
  wired : Wired s
  index : ∀ c, IndexInv c s

theorem reached_exec {E : Env} {s s' : Sys} {ops : List Op} (h0 : Initial s) (ho : OrderlyRun E s ops)
    (h : exec E s ops = .ok s') : Orderly.Reached s' :=
  ⟨inv_exec (inv_initial h0) h, wired_exec (wired_initial h0) h, fun c => indexInv_exec (indexInv_initial h0 c) ho h⟩

theorem kind_step {E : Env} {s s' : Sys} {op : Op} (h : step E s op = .ok s') (c : ChanId) :
    (s'.chan c).kind = (s.chan c).kind := by
  rcases chan_step h with h1 | ⟨d, c', rfl⟩ | ⟨c', slot, rfl⟩
  · rw [h1]
  · obtain ⟨g, t, _, rfl⟩ := attach_ok h
    by_cases hc : c = c' <;> simp [hc]
  · obtain ⟨g, t, _, h⟩ := detach_ok h
    rcases h with ⟨d, _, _, rfl⟩ | ⟨_, rfl⟩ <;> by_cases hc : c = c' <;> simp [hc]

theorem kind_exec {E : Env} {s s' : Sys} {ops : List Op} (h : exec E s ops = .ok s') (c : ChanId) :
    (s'.chan c).kind = (s.chan c).kind :=
  exec_induct (P := fun x => (x.chan c).kind = (s.chan c).kind)
    (fun _ _ _ hP hs => by rw [kind_step hs c]; exact hP) rfl h

/-- Every hand-over in one operation belongs to a transmission by the sender on its current channel. -/
theorem txrx_step {E : Env} {s s' : Sys} {op : Op} (hi : Inv s) (hw : Wired s) (h : step E s op = .ok s')
    {t : Time} {c : ChanId} {f : Bytes} {src dst : DevId} {tx del : Time}
    (hm : (t, Ev.txrx c f src dst tx del) ∈ newLog s s') :
    ∃ dest pw, (s.dev src).chan = some c ∧ (s.chan c).link[(s.dev src).chanSlot]? = some src ∧
      dst ∈ audience s c (s.dev src).chanSlot dest ∧ t = s'.now ∧ tx = E.txTime (s.dev src).rate f.length ∧
      reachDev E { s with now := s'.now } c src tx dst = some (del, pw) ∧
      (⟨s'.now + del, .receive dst f src pw⟩ : Pending) ∈ s'.pending ∧
      (s'.now, Ev.phyTxBegin src f) ∈ newLog s s' := by
  have free : ∀ l : List (Time × Ev), AirFree l → (t, Ev.txrx c f src dst tx del) ∉ l :=
    fun l hl hmem => hl _ hmem
  cases netStep_step hi hw h with
  | quiet l hlog hl hp =>
    replace hl := hl.air
    simp only [newLog, hlog, List.drop_left] at hm
    exact absurd hm (free l hl)
  | recv d g sr rx l hop hp hlog hl hd hc hcall =>
    simp only [newLog, hlog, List.drop_left] at hm
    rcases List.mem_cons.mp hm with hm | hm
    · cases hm
    · exact absurd hm (free _ (airFree_rxEvs _ hl))
  | tx d g dest c' rs b ps l1 l2 hchan hrs hb hps hp hlog hl1 hl2 hd hc =>
    replace hl1 := hl1.air
    replace hl2 := hl2.air
    have hlog' := congrArg (List.drop s.log.length) hlog
    rw [List.drop_left] at hlog'
    unfold newLog at hm ⊢
    rw [hlog'] at hm ⊢
    simp only [List.mem_append] at hm
    rcases hm with hm | hm | hm | hm | hm
    · exact absurd hm (free _ hl1)
    · simp at hm
    · obtain ⟨r, hr, he⟩ := List.mem_map.mp hm
      simp only [Recv.entry, Prod.mk.injEq, Ev.txrx.injEq] at he
      obtain ⟨rfl, rfl, rfl, rfl, rfl, rfl, rfl⟩ := he
      rw [hrs] at hr
      obtain ⟨x, hx, hxr⟩ := List.mem_filterMap.mp hr
      have hxd := recvOf_dst hxr
      subst hxd
      rw [recvOf_reachDev, Option.map_eq_some_iff] at hxr
      obtain ⟨y, hy, hyr⟩ := hxr
      refine ⟨dest, r.power, hchan, hw _ _ hchan, hx, rfl, rfl, ?_, ?_, ?_⟩
      · rw [hy]; rw [← hyr]
      · rw [hp, mem_insertAll]
        left
        rw [← hrs] at hr
        exact List.mem_map.mpr ⟨r, hr, rfl⟩
      · simp
    · split at hm
      · cases hm
      · simp at hm
    · exact absurd hm (free _ hl2)

theorem log_prefix_step {E : Env} {s s' : Sys} {op : Op} (hi : Inv s) (hw : Wired s) (h : step E s op = .ok s') :
    s'.log = s.log ++ newLog s s' := by
  unfold newLog
  cases netStep_step hi hw h with
  | quiet l hlog hl hp => rw [hlog]; simp
  | recv d g sr rx l hop hp hlog hl hd hc hcall => rw [hlog]; simp
  | tx d g dest c' rs b ps l1 l2 hchan hrs hb hps hp hlog hl1 hl2 hd hc => rw [hlog]; simp

/-- Every log entry of a history was made by one of its operations. -/
theorem log_entry_origin {E : Env} {s s' : Sys} {ops : List Op} (h0 : Initial s) (h : exec E s ops = .ok s')
    {e : Time × Ev} (he : e ∈ s'.log) :
    ∃ o1 op o2 s1 s2, ops = o1 ++ op :: o2 ∧ exec E s o1 = .ok s1 ∧ step E s1 op = .ok s2 ∧
      exec E s2 o2 = .ok s' ∧ e ∈ newLog s1 s2 := by
  have key : ∀ (ops done : List Op) (s1 : Sys), exec E s done = .ok s1 → exec E s1 ops = .ok s' → e ∉ s1.log →
      ∃ o1 op o2 t1 t2, ops = o1 ++ op :: o2 ∧ exec E s1 o1 = .ok t1 ∧ step E t1 op = .ok t2 ∧
        exec E t2 o2 = .ok s' ∧ e ∈ newLog t1 t2 := by
    intro ops
    induction ops with
    | nil =>
      intro done s1 _ h2 h3
      injection h2 with h2; subst h2
      exact absurd he h3
    | cons op ops ih =>
      intro done s1 h1 h2 h3
      simp only [exec] at h2
      rw [Outcome.bind_eq_ok] at h2
      obtain ⟨s2, h4, h5⟩ := h2
      have hpre := log_prefix_step (inv_exec (inv_initial h0) h1) (wired_exec (wired_initial h0) h1) h4
      by_cases hmem : e ∈ newLog s1 s2
      · exact ⟨[], op, ops, s1, s2, rfl, rfl, h4, h5, hmem⟩
      · have h6 : e ∉ s2.log := by rw [hpre]; simp [h3, hmem]
        have h7 : exec E s (done ++ [op]) = .ok s2 := by
          rw [exec_append, h1]; simp [exec, h4]
        obtain ⟨o1, op', o2, t1, t2, rfl, h8, h9, h10, h11⟩ := ih _ _ h7 h5 h6
        exact ⟨op :: o1, op', o2, t1, t2, rfl, by simp [exec, h4, h8], h9, h10, h11⟩
  exact key ops [] s rfl h (by rw [h0.log]; simp)

end Verif
