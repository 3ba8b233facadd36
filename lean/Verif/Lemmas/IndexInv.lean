import Verif.Lemmas.Index
/-! The address indices of the LEO channel agree with the roster in orderly histories. -/

namespace Verif
open Spec

theorem mem_members_attach {l : List DevId} {d y : DevId} :
    y ∈ (if d ∈ l then l else l ++ [d]) ↔ y ∈ l ∨ y = d := by
  split
  · rename_i h
    exact ⟨Or.inl, fun h' => h'.elim id (fun h' => h' ▸ h)⟩
  · simp

/-- Index, slots and roster of channel `c` agree. -/
structure IndexInv (c : ChanId) (s : Sys) : Prop where
  link : (s.chan c).link = slots c s.log
  sub : ∀ x ∈ members c s.log, x ∈ slots c s.log
  inj : ∀ x ∈ slots c s.log, ∀ y ∈ slots c s.log, (s.dev x).addr = (s.dev y).addr → x = y
  gnd : (s.chan c).kind = .leo → ∀ a x, (a, x) ∈ (s.chan c).gnd ↔
    x ∈ members c s.log ∧ (s.dev x).side = .gnd ∧ a = (s.dev x).addr
  sat : (s.chan c).kind = .leo → ∀ a x, (a, x) ∈ (s.chan c).sat ↔
    x ∈ members c s.log ∧ (s.dev x).side = .sat ∧ a = (s.dev x).addr
  sortedG : SortedKeys (s.chan c).gnd
  sortedS : SortedKeys (s.chan c).sat

theorem indexInv_initial {s : Sys} (h : Initial s) (c : ChanId) : IndexInv c s := by
  obtain ⟨h1, h2, h3⟩ := h.chans c
  have hr : roster c s.log = ([], []) := by rw [h.log]; rfl
  constructor <;> simp [h1, h2, h3, slots, members, hr, SortedKeys]

theorem indexInv_attach {s s' : Sys} {d : DevId} {c c' : ChanId} (hi : IndexInv c s)
    (ho : Orderly s (.attach d c')) (h : attach s d c' = .ok s') : IndexInv c s' := by
  obtain ⟨g, t, hgt, hs'⟩ := attach_ok h
  have hdev : ∀ x, (s'.dev x).addr = (s.dev x).addr ∧ (s'.dev x).side = (s.dev x).side := by
    intro x; rw [hs']; by_cases hx : x = d <;> simp [hx]
  have hro : roster c s'.log =
      if c' = c then (slots c s.log ++ [d], if d ∈ members c s.log then members c s.log else members c s.log ++ [d])
      else roster c s.log := by rw [hs']; exact roster_attach
  by_cases hc : c' = c
  · subst hc
    rw [if_pos rfl] at hro
    have hsl : slots c' s'.log = slots c' s.log ++ [d] := by unfold slots at hro ⊢; rw [hro]
    have hme : ∀ y, y ∈ members c' s'.log ↔ y ∈ members c' s.log ∨ y = d := by
      intro y
      have : members c' s'.log = if d ∈ members c' s.log then members c' s.log else members c' s.log ++ [d] := by
        unfold members at hro ⊢; rw [hro]
      rw [this]; exact mem_members_attach
    have hch : s'.chan c' = { s.chan c' with link := (s.chan c').link ++ [d], gnd := g, sat := t } := by
      rw [hs']; simp
    have key : ∀ (sd : Side) (m : List (Mac48 × DevId)), SortedKeys m →
        (∀ a x, (a, x) ∈ m ↔ x ∈ members c' s.log ∧ (s.dev x).side = sd ∧ a = (s.dev x).addr) →
        (s.dev d).side = sd → ∀ a x, (a, x) ∈ mapInsert (s.dev d).addr d m ↔
          x ∈ members c' s'.log ∧ (s'.dev x).side = sd ∧ a = (s'.dev x).addr := by
      intro sd m hsm hm hsd a x
      rw [mem_mapInsert hsm, hme, (hdev x).1, (hdev x).2, hm]
      constructor
      · rintro (⟨rfl, rfl⟩ | ⟨_, h1, h2, h3⟩)
        · exact ⟨Or.inr rfl, hsd, rfl⟩
        · exact ⟨Or.inl h1, h2, h3⟩
      · rintro ⟨h1, h2, h3⟩
        by_cases hx : x = d
        · subst hx; exact Or.inl ⟨h3, rfl⟩
        · rcases h1 with h1 | h1
          · refine Or.inr ⟨?_, h1, h2, h3⟩
            rintro rfl
            exact hx (ho x (hi.sub x h1) h3.symm)
          · exact absurd h1 hx
    have keep : ∀ (sd : Side) (m : List (Mac48 × DevId)),
        (∀ a x, (a, x) ∈ m ↔ x ∈ members c' s.log ∧ (s.dev x).side = sd ∧ a = (s.dev x).addr) →
        (s.dev d).side ≠ sd → ∀ a x, (a, x) ∈ m ↔
          x ∈ members c' s'.log ∧ (s'.dev x).side = sd ∧ a = (s'.dev x).addr := by
      intro sd m hm hsd a x
      rw [hme, (hdev x).1, (hdev x).2, hm]
      constructor
      · rintro ⟨h1, h2⟩; exact ⟨Or.inl h1, h2⟩
      · rintro ⟨h1 | rfl, h2, h3⟩
        · exact ⟨h1, h2, h3⟩
        · exact absurd h2 hsd
    have hcommon : (∀ x ∈ members c' s'.log, x ∈ slots c' s'.log) ∧
        (∀ x ∈ slots c' s'.log, ∀ y ∈ slots c' s'.log, (s'.dev x).addr = (s'.dev y).addr → x = y) := by
      constructor
      · intro x hx
        rw [hsl]
        rcases (hme x).mp hx with hx | rfl
        · simp [hi.sub x hx]
        · simp
      · intro x hx y hy hxy
        rw [(hdev x).1, (hdev y).1] at hxy
        rw [hsl] at hx hy
        simp only [List.mem_append, List.mem_singleton] at hx hy
        rcases hx with hx | rfl <;> rcases hy with hy | rfl
        · exact hi.inj x hx y hy hxy
        · exact ho x hx hxy
        · exact (ho y hy hxy.symm).symm
        · rfl
    rcases hgt with ⟨hk, rfl, rfl⟩ | ⟨hk, _, ⟨hsd, rfl, rfl⟩ | ⟨hsd, rfl, rfl⟩⟩
    · refine ⟨by rw [hch, hsl, hi.link], hcommon.1, hcommon.2, ?_, ?_, by rw [hch]; exact hi.sortedG,
        by rw [hch]; exact hi.sortedS⟩ <;>
      · intro hk'; rw [hch] at hk'; simp only at hk'; rw [hk] at hk'; cases hk'
    · refine ⟨by rw [hch, hsl, hi.link], hcommon.1, hcommon.2, fun _ => ?_, fun _ => ?_,
        by rw [hch]; exact sorted_mapInsert hi.sortedG, by rw [hch]; exact hi.sortedS⟩
      · rw [hch]; exact key .gnd _ hi.sortedG (hi.gnd hk) hsd
      · rw [hch]; exact keep .sat _ (hi.sat hk) (by rw [hsd]; simp)
    · refine ⟨by rw [hch, hsl, hi.link], hcommon.1, hcommon.2, fun _ => ?_, fun _ => ?_,
        by rw [hch]; exact hi.sortedG, by rw [hch]; exact sorted_mapInsert hi.sortedS⟩
      · rw [hch]; exact keep .gnd _ (hi.gnd hk) (by rw [hsd]; simp)
      · rw [hch]; exact key .sat _ hi.sortedS (hi.sat hk) hsd
  · rw [if_neg hc] at hro
    have hsl : slots c s'.log = slots c s.log := by unfold slots; rw [hro]
    have hme : members c s'.log = members c s.log := by unfold members; rw [hro]
    have hch : s'.chan c = s.chan c := by rw [hs']; simp [show c ≠ c' from fun h => hc h.symm]
    constructor
    · rw [hch, hsl, hi.link]
    · rw [hsl, hme]; exact hi.sub
    · rw [hsl]; intro x hx y hy hxy; rw [(hdev x).1, (hdev y).1] at hxy; exact hi.inj x hx y hy hxy
    · intro hk a x; rw [hch] at hk ⊢; rw [hme, (hdev x).1, (hdev x).2]; exact hi.gnd hk a x
    · intro hk a x; rw [hch] at hk ⊢; rw [hme, (hdev x).1, (hdev x).2]; exact hi.sat hk a x
    · rw [hch]; exact hi.sortedG
    · rw [hch]; exact hi.sortedS

/-- What a successful `detach` does to channel, devices and log, in one formula. -/
theorem detach_view {s s' : Sys} {c : ChanId} {slot : Nat} (h : detach s c slot = .ok s') :
    ∃ g t r l, (((s.chan c).kind = .isl ∧ g = (s.chan c).gnd ∧ t = (s.chan c).sat) ∨
        ((s.chan c).kind = .leo ∧ ∃ d, (s.chan c).link[slot]? = some d ∧
          g = mapErase (s.dev d).addr (s.chan c).gnd ∧ t = mapErase (s.dev d).addr (s.chan c).sat)) ∧
      (∀ e ∈ l, RosterFreeEv e.2) ∧
      s'.log = s.log ++ (l ++ [(s.now, .detachRet c slot r)]) ∧
      s'.chan = (fun x => if x = c then { s.chan c with gnd := g, sat := t } else s.chan x) ∧
      (∀ x, (s'.dev x).addr = (s.dev x).addr ∧ (s'.dev x).side = (s.dev x).side) ∧
      (∀ d, (s.chan c).link[slot]? = some d → (s'.dev d).linkUp = false) ∧
      (r = true ↔ ∃ d, (s.chan c).link[slot]? = some d ∧ (s.dev d).linkUp = true) := by
  obtain ⟨g, t, hgt, h⟩ := detach_ok h
  rcases h with ⟨d, hd, hlu, rfl⟩ | ⟨hd, rfl⟩
  · refine ⟨g, t, true, [(s.now, .linkChange d)], hgt, ?_, rfl, rfl, ?_, ?_, ?_⟩
    · intro e he; simp at he; subst he; exact trivial
    · intro x; by_cases hx : x = d <;> simp [hx]
    · intro d' hd'; rw [hd] at hd'; injection hd' with hd'; subst hd'; simp
    · exact iff_of_true rfl ⟨d, hd, hlu⟩
  · refine ⟨g, t, false, [], hgt, (by intro e he; cases he), rfl, rfl, fun x => ⟨rfl, rfl⟩, hd, ?_⟩
    refine iff_of_false (by simp) ?_
    rintro ⟨d, h1, h2⟩
    rw [hd d h1] at h2; cases h2

theorem indexInv_detach {s s' : Sys} {c c' : ChanId} {slot : Nat} (hi : IndexInv c s)
    (h : detach s c' slot = .ok s') : IndexInv c s' := by
  obtain ⟨g, t, r, l, hgt, hl, hlog, hchan, hdev, _, _⟩ := detach_view h
  have hro : roster c s'.log =
      if c' = c then (slots c s.log, match (slots c s.log)[slot]? with
        | some d => (members c s.log).filter (fun x => x ≠ d) | none => members c s.log)
      else roster c s.log := by rw [hlog]; exact roster_detach hl
  by_cases hc : c' = c
  · subst hc
    rw [if_pos rfl] at hro
    have hsl : slots c' s'.log = slots c' s.log := by unfold slots at hro ⊢; rw [hro]
    have hme : members c' s'.log = match (slots c' s.log)[slot]? with
        | some d => (members c' s.log).filter (fun x => x ≠ d) | none => members c' s.log := by
      unfold members at hro ⊢; rw [hro]
    have hsubm : ∀ x ∈ members c' s'.log, x ∈ members c' s.log := by
      intro x hx
      rw [hme] at hx
      split at hx
      · exact (List.mem_filter.mp hx).1
      · exact hx
    have hch : s'.chan c' = { s.chan c' with gnd := g, sat := t } := by rw [hchan]; simp
    have hcommon : (∀ x ∈ members c' s'.log, x ∈ slots c' s'.log) ∧
        (∀ x ∈ slots c' s'.log, ∀ y ∈ slots c' s'.log, (s'.dev x).addr = (s'.dev y).addr → x = y) := by
      rw [hsl]
      refine ⟨fun x hx => hi.sub x (hsubm x hx), ?_⟩
      intro x hx y hy hxy
      rw [(hdev x).1, (hdev y).1] at hxy
      exact hi.inj x hx y hy hxy
    rcases hgt with ⟨hk, rfl, rfl⟩ | ⟨hk, d, hd, rfl, rfl⟩
    · refine ⟨by rw [hch, hsl, hi.link], hcommon.1, hcommon.2, ?_, ?_, by rw [hch]; exact hi.sortedG,
        by rw [hch]; exact hi.sortedS⟩ <;>
      · intro hk'; rw [hch] at hk'; simp only at hk'; rw [hk] at hk'; cases hk'
    · rw [hi.link] at hd
      rw [hd] at hme
      simp only at hme
      have hds : d ∈ slots c' s.log := List.mem_of_getElem? hd
      have key : ∀ (sd : Side) (m : List (Mac48 × DevId)),
          (∀ a x, (a, x) ∈ m ↔ x ∈ members c' s.log ∧ (s.dev x).side = sd ∧ a = (s.dev x).addr) →
          ∀ a x, (a, x) ∈ mapErase (s.dev d).addr m ↔
            x ∈ members c' s'.log ∧ (s'.dev x).side = sd ∧ a = (s'.dev x).addr := by
        intro sd m hm a x
        rw [mem_mapErase, hm, (hdev x).1, (hdev x).2, hme, List.mem_filter]
        simp only [decide_eq_true_eq, ne_eq, decide_not, Bool.not_eq_eq_eq_not, Bool.not_true, decide_eq_false_iff_not]
        constructor
        · rintro ⟨⟨h1, h2, rfl⟩, h4⟩
          exact ⟨⟨h1, fun h => h4 (by rw [h])⟩, h2, rfl⟩
        · rintro ⟨⟨h1, h5⟩, h2, rfl⟩
          exact ⟨⟨h1, h2, rfl⟩, fun h => h5 (hi.inj x (hi.sub x h1) d hds h)⟩
      refine ⟨by rw [hch, hsl, hi.link], hcommon.1, hcommon.2, fun _ => ?_, fun _ => ?_,
        by rw [hch]; exact sorted_mapErase hi.sortedG, by rw [hch]; exact sorted_mapErase hi.sortedS⟩
      · rw [hch]; exact key .gnd _ (hi.gnd hk)
      · rw [hch]; exact key .sat _ (hi.sat hk)
  · rw [if_neg hc] at hro
    have hsl : slots c s'.log = slots c s.log := by unfold slots; rw [hro]
    have hme : members c s'.log = members c s.log := by unfold members; rw [hro]
    have hch : s'.chan c = s.chan c := by rw [hchan]; simp [show c ≠ c' from fun h => hc h.symm]
    constructor
    · rw [hch, hsl, hi.link]
    · rw [hsl, hme]; exact hi.sub
    · rw [hsl]; intro x hx y hy hxy; rw [(hdev x).1, (hdev y).1] at hxy; exact hi.inj x hx y hy hxy
    · intro hk a x; rw [hch] at hk ⊢; rw [hme, (hdev x).1, (hdev x).2]; exact hi.gnd hk a x
    · intro hk a x; rw [hch] at hk ⊢; rw [hme, (hdev x).1, (hdev x).2]; exact hi.sat hk a x
    · rw [hch]; exact hi.sortedG
    · rw [hch]; exact hi.sortedS

/-- Devices outside the roster may change address and type. -/
theorem indexInv_cfg {c : ChanId} {s s' : Sys} (hi : IndexInv c s)
    (hch : s'.chan = s.chan) (hro : roster c s'.log = roster c s.log)
    (hm : ∀ x ∈ members c s.log, (s'.dev x).addr = (s.dev x).addr ∧ (s'.dev x).side = (s.dev x).side)
    (hinj : ∀ x ∈ slots c s.log, ∀ y ∈ slots c s.log, (s'.dev x).addr = (s'.dev y).addr → x = y) :
    IndexInv c s' := by
  have hsl : slots c s'.log = slots c s.log := by unfold slots; rw [hro]
  have hme : members c s'.log = members c s.log := by unfold members; rw [hro]
  constructor
  · rw [hch, hsl, hi.link]
  · rw [hsl, hme]; exact hi.sub
  · rw [hsl]; exact hinj
  · intro hk a x
    rw [hch] at hk ⊢; rw [hme, hi.gnd hk]
    constructor
    · rintro ⟨h1, h2, h3⟩; rw [(hm x h1).1, (hm x h1).2]; exact ⟨h1, h2, h3⟩
    · rintro ⟨h1, h2, h3⟩; rw [(hm x h1).1] at h3; rw [(hm x h1).2] at h2; exact ⟨h1, h2, h3⟩
  · intro hk a x
    rw [hch] at hk ⊢; rw [hme, hi.sat hk]
    constructor
    · rintro ⟨h1, h2, h3⟩; rw [(hm x h1).1, (hm x h1).2]; exact ⟨h1, h2, h3⟩
    · rintro ⟨h1, h2, h3⟩; rw [(hm x h1).1] at h3; rw [(hm x h1).2] at h2; exact ⟨h1, h2, h3⟩
  · rw [hch]; exact hi.sortedG
  · rw [hch]; exact hi.sortedS

theorem indexInv_step {E : Env} {s s' : Sys} {op : Op} {c : ChanId} (hi : IndexInv c s) (ho : Orderly s op)
    (h : step E s op = .ok s') : IndexInv c s' := by
  rcases ids_step h with ⟨h1, h2, h3⟩ | ⟨d, c', rfl⟩ | ⟨c', slot, rfl⟩ | ⟨d, m, rfl⟩ | ⟨d, sd, rfl⟩
  · refine indexInv_cfg hi h3 (h2 c) (fun x _ => h1 x) ?_
    intro x hx y hy hxy
    rw [(h1 x).1, (h1 y).1] at hxy
    exact hi.inj x hx y hy hxy
  · exact indexInv_attach hi ho h
  · exact indexInv_detach hi h
  · injection h with h; subst h
    obtain ⟨hd, huniq⟩ := ho c
    refine indexInv_cfg hi rfl rfl ?_ ?_
    · intro x hx
      have : x ≠ d := by rintro rfl; exact hd hx
      simp [Sys.setDev, this]
    · intro x hx y hy hxy
      simp only [Sys.setDev] at hxy
      by_cases hxd : x = d <;> by_cases hyd : y = d
      · rw [hxd, hyd]
      · rw [if_pos hxd, if_neg hyd] at hxy
        subst hxd
        exact (huniq hx y hy hxy.symm).symm
      · rw [if_neg hxd, if_pos hyd] at hxy
        subst hyd
        exact huniq hy x hx hxy
      · rw [if_neg hxd, if_neg hyd] at hxy
        exact hi.inj x hx y hy hxy
  · injection h with h; subst h
    have hd := ho c
    refine indexInv_cfg hi rfl rfl ?_ ?_
    · intro x hx
      have : x ≠ d := by rintro rfl; exact hd hx
      simp [Sys.setDev, this]
    · intro x hx y hy hxy
      refine hi.inj x hx y hy ?_
      simp only [Sys.setDev] at hxy
      by_cases hxd : x = d <;> by_cases hyd : y = d <;> simp_all

theorem orderlyRun_cons {E : Env} {s s1 : Sys} {op : Op} {ops : List Op} (h : OrderlyRun E s (op :: ops))
    (h1 : step E s op = .ok s1) : Orderly s op ∧ OrderlyRun E s1 ops := by
  refine ⟨h [] op ops s rfl rfl, ?_⟩
  rintro o1 op' o2 s2 rfl h2
  exact h (op :: o1) op' o2 s2 rfl (by simp [exec, h1, h2])

theorem indexInv_exec {E : Env} {s s' : Sys} {ops : List Op} {c : ChanId} (hi : IndexInv c s)
    (ho : OrderlyRun E s ops) (h : exec E s ops = .ok s') : IndexInv c s' := by
  induction ops generalizing s with
  | nil => injection h with h; subst h; exact hi
  | cons op ops ih =>
    simp only [exec] at h
    rw [Outcome.bind_eq_ok] at h
    obtain ⟨s1, h1, h2⟩ := h
    obtain ⟨ho1, ho2⟩ := orderlyRun_cons ho h1
    exact ih (indexInv_step hi ho1 h1) ho2 h2

/-! ### Recipients -/

theorem recvOf_reachDev (E : Env) (s : Sys) (c : ChanId) (src : DevId) (t : Time) (dst : DevId) :
    recvOf E s c src t dst = (reachDev E s c src t dst).map (fun x => ⟨dst, x.1, x.2⟩) := by
  unfold recvOf reachDev
  split <;> simp_all

theorem reachDev_isSome_time (E : Env) (s : Sys) (c : ChanId) (src : DevId) (t : Time) (dst : DevId) :
    (reachDev E s c src t dst).isSome = true ↔ Reachable E s c src dst := by
  unfold Reachable reachDev
  split
  · unfold reach
    split
    · simp
    · simp
  · simp

end Verif
