import Verif.Model.Lifetime
import Verif.Lemmas.Fleet
import Verif.Lemmas.NetDrain
/-!
# Objects and the events that refer to them (for C106)
-/

namespace Verif
open Real

/-! ### Mobility models -/

theorem mem_update_pending {F : Fleet} {i : Nat} {x : Time × FleetEv} (h : x ∈ (F.update i).pending) : x ∈ F.pending ∨ x.2 = .update i := by
  unfold Fleet.update at h
  split at h
  · exact Or.inl h
  · simp only at h
    split at h
    · rcases mem_insertFleetEv.mp h with rfl | h
      · exact Or.inr rfl
      · exact Or.inl h
    · exact Or.inl h

theorem mem_pending_update {F : Fleet} (i : Nat) {x : Time × FleetEv} (h : x ∈ F.pending) : x ∈ (F.update i).pending := by
  unfold Fleet.update
  split
  · exact h
  · simp only
    split
    · exact mem_insertFleetEv.mpr (Or.inr h)
    · exact h

theorem fleet_step_fail {junk : ℝ} {F : Fleet} {o : FleetOp} {x : Fault} (h : F.step junk o = .fail x) : x = .zeroInclination := by
  cases o with
  | create alt inc prec =>
    simp only [Fleet.step, Sat.create, Sat.setInclination] at h
    split at h
    · simpa using h.symm
    · simp at h
  | setInclination i y =>
    simp only [Fleet.step] at h
    split at h
    · injection h with h; exact h.symm
    · cases h
  | run =>
    simp only [Fleet.step] at h
    split at h
    · cases h
    · split at h <;> cases h
  | wait dt =>
    simp only [Fleet.step] at h
    split at h
    · cases h
    · split at h <;> cases h
  | _ => cases h

/-- Where the update events after an operation come from. -/
theorem fleet_pending_step {junk : ℝ} {F F' : Fleet} {o : FleetOp} (h : F.step junk o = .ok F') {t : Time} {j : Nat}
    (hm : (t, FleetEv.update j) ∈ F'.pending) :
    (t, FleetEv.update j) ∈ F.pending ∨ o.target = some j ∨
      (o = .run ∧ F.stopped = false ∧ ∃ t0 rest, F.pending = (t0, .update j) :: rest) := by
  have upd : ∀ {G : Fleet} {i : Nat}, (t, FleetEv.update j) ∈ (G.update i).pending → (t, FleetEv.update j) ∈ G.pending ∨ i = j := by
    intro G i hx
    rcases mem_update_pending hx with hx | hx
    · exact Or.inl hx
    · right; simpa using hx.symm
  cases o with
  | create alt inc prec =>
    simp only [Fleet.step] at h
    obtain ⟨s, _, h⟩ := Outcome.bind_eq_ok.mp h
    injection h with h
    subst h
    exact Or.inl hm
  | setPosition i v =>
    injection h with h; subst h
    rcases upd hm with hm | rfl
    · exact Or.inl hm
    · exact Or.inr (Or.inl rfl)
  | setAltitude i v =>
    injection h with h; subst h
    rcases upd hm with hm | rfl
    · exact Or.inl hm
    · exact Or.inr (Or.inl rfl)
  | setInclination i v =>
    simp only [Fleet.step] at h
    split at h
    · cases h
    · injection h with h; subst h
      rcases upd hm with hm | rfl
      · exact Or.inl hm
      · exact Or.inr (Or.inl rfl)
  | setPrecision i v => injection h with h; subst h; exact Or.inl hm
  | connect => injection h with h; subst h; exact Or.inl hm
  | stopAfter dt =>
    injection h with h; subst h
    rcases mem_insertFleetEv.mp hm with e | hm
    · simp at e
    · exact Or.inl hm
  | run =>
    simp only [Fleet.step] at h
    split at h
    · injection h with h; subst h; exact Or.inl hm
    · rename_i hst
      split at h
      · injection h with h; subst h; exact Or.inl hm
      · rename_i t0 i rest hp
        injection h with h; subst h
        rcases upd hm with hm | rfl
        · left; rw [hp]; exact List.mem_cons_of_mem _ hm
        · exact Or.inr (Or.inr ⟨rfl, by simpa using hst, t0, rest, hp⟩)
      · rename_i t0 rest hp
        injection h with h; subst h
        left; rw [hp]; exact List.mem_cons_of_mem _ hm
  | wait dt =>
    simp only [Fleet.step] at h
    split at h
    · injection h with h; subst h; exact Or.inl hm
    · split at h <;> injection h with h <;> subst h <;> exact Or.inl hm

/-- What an operation does, for all operations of `Model/Fleet`. -/
theorem lstep_op {junk : ℝ} {L L' : LFleet} {o : FleetOp} (h : L.step junk (.op o) = .ok L') :
    (L' = L ∧ ∃ i, o.target = some i ∧ L.alive i = false) ∨
    (o = .connect ∧ ∃ k, L' = { L with fleet := { L.fleet with sinks := k } }) ∨
    (o ≠ .connect ∧ L.fleet.step junk o = .ok L'.fleet ∧ L'.node = L.node ∧ (∀ i, o.target = some i → L.alive i = true) ∧
      (∀ i t rest, o = .run → L.fleet.stopped = false → L.fleet.pending = (t, .update i) :: rest → L.alive i = true) ∧
      (L'.var = L.var ∨ ∃ a b p, o = .create a b p ∧ L'.var = fun j => if j = L.fleet.mobs.length then true else L.var j)) := by
  have tgt : ∀ (o : FleetOp) (i : Nat), o ≠ .connect → o ≠ .run → o.target = some i →
      (if L.alive i then L.fleet.step junk o >>= fun F => .ok { L with fleet := F } else .ok L) = Outcome.ok L' →
      (L' = L ∧ ∃ i, o.target = some i ∧ L.alive i = false) ∨
      (o ≠ .connect ∧ L.fleet.step junk o = .ok L'.fleet ∧ L'.node = L.node ∧ (∀ i, o.target = some i → L.alive i = true) ∧
      (∀ i t rest, o = .run → L.fleet.stopped = false → L.fleet.pending = (t, .update i) :: rest → L.alive i = true) ∧
      (L'.var = L.var ∨ ∃ a b p, o = .create a b p ∧ L'.var = fun j => if j = L.fleet.mobs.length then true else L.var j)) := by
    intro o i h1 h2 h3 h
    split at h
    · rename_i ha
      obtain ⟨F, hF, h⟩ := Outcome.bind_eq_ok.mp h
      injection h with h; subst h
      refine Or.inr ⟨h1, hF, rfl, ?_, fun _ _ _ hr => absurd hr h2, Or.inl rfl⟩
      intro j hj
      rw [h3] at hj
      injection hj with hj
      exact hj ▸ ha
    · rename_i ha
      injection h with h
      exact Or.inl ⟨h.symm, i, h3, by simpa using ha⟩
  cases o with
  | connect => simp only [LFleet.step] at h; injection h with h; exact Or.inr (Or.inl ⟨rfl, _, h.symm⟩)
  | create a b p =>
    simp only [LFleet.step] at h
    obtain ⟨F, hF, h⟩ := Outcome.bind_eq_ok.mp h
    injection h with h; subst h
    exact Or.inr (Or.inr ⟨by simp, hF, rfl, by simp [FleetOp.target], by simp, Or.inr ⟨a, b, p, rfl, rfl⟩⟩)
  | run =>
    simp only [LFleet.step] at h
    right; right
    split at h
    · rename_i t i rest hp
      split at h
      · cases h
      · rename_i hc
        obtain ⟨F, hF, h⟩ := Outcome.bind_eq_ok.mp h
        injection h with h; subst h
        refine ⟨by simp, hF, rfl, by simp [FleetOp.target], ?_, Or.inl rfl⟩
        intro j t' rest' _ hs hp'
        rw [hp] at hp'
        simp only [List.cons.injEq, Prod.mk.injEq, FleetEv.update.injEq] at hp'
        obtain ⟨⟨_, rfl⟩, _⟩ := hp'
        simpa [hs] using hc
    · rename_i hno
      obtain ⟨F, hF, h⟩ := Outcome.bind_eq_ok.mp h
      injection h with h; subst h
      refine ⟨by simp, hF, rfl, by simp [FleetOp.target], ?_, Or.inl rfl⟩
      intro j t' rest' _ hs hp'
      exact absurd hp' (hno t' j rest')
  | setPosition i v => rcases tgt _ i (by simp) (by simp) rfl h with h | h; exact Or.inl h; exact Or.inr (Or.inr h)
  | setAltitude i v => rcases tgt _ i (by simp) (by simp) rfl h with h | h; exact Or.inl h; exact Or.inr (Or.inr h)
  | setInclination i v => rcases tgt _ i (by simp) (by simp) rfl h with h | h; exact Or.inl h; exact Or.inr (Or.inr h)
  | setPrecision i v => rcases tgt _ i (by simp) (by simp) rfl h with h | h; exact Or.inl h; exact Or.inr (Or.inr h)
  | stopAfter dt =>
    simp only [LFleet.step, FleetOp.target] at h
    obtain ⟨F, hF, h⟩ := Outcome.bind_eq_ok.mp h
    injection h with h; subst h
    exact Or.inr (Or.inr ⟨by simp, hF, rfl, by simp [FleetOp.target], by simp, Or.inl rfl⟩)
  | wait dt =>
    simp only [LFleet.step, FleetOp.target] at h
    obtain ⟨F, hF, h⟩ := Outcome.bind_eq_ok.mp h
    injection h with h; subst h
    exact Or.inr (Or.inr ⟨by simp, hF, rfl, by simp [FleetOp.target], by simp, Or.inl rfl⟩)

theorem linv_step {junk : ℝ} {L L' : LFleet} {o : LOp} (hi : FleetInv L.fleet) (h : L.step junk o = .ok L') : FleetInv L'.fleet := by
  cases o with
  | aggregate i => injection h with h; subst h; split <;> exact hi
  | drop i => injection h with h; subst h; exact hi
  | destroy =>
    injection h with h; subst h
    exact ⟨List.Pairwise.nil, (by intro e he; cases he), (by intro t i hm; cases hm), hi.note⟩
  | op o =>
    rcases lstep_op h with ⟨rfl, _⟩ | ⟨_, k, rfl⟩ | ⟨_, h1, _⟩
    · exact hi
    · exact ⟨hi.sorted, hi.future, hi.idx, hi.note⟩
    · exact fleetInv_step hi h1

theorem linv_exec {junk : ℝ} : ∀ {ops : List LOp} {L L' : LFleet}, FleetInv L.fleet → L.exec junk ops = .ok L' → FleetInv L'.fleet
  | [], _, _, hi, h => by injection h with h; subst h; exact hi
  | _ :: _, _, _, hi, h => by
    obtain ⟨L1, h1, h2⟩ := Outcome.bind_eq_ok.mp h
    exact linv_exec (linv_step hi h1) h2

theorem lexec_append {junk : ℝ} : ∀ {o1 o2 : List LOp} {L : LFleet},
    L.exec junk (o1 ++ o2) = (L.exec junk o1 >>= fun L' => L'.exec junk o2)
  | [], _, _ => rfl
  | o :: o1, o2, L => by
    simp only [List.cons_append, LFleet.exec]
    cases h : L.step junk o with
    | fail x => rfl
    | ok L1 => simp only [Outcome.ok_bind]; exact lexec_append

/-- Every update event is for an object that exists. -/
def Owned (L : LFleet) : Prop := ∀ t i, (t, FleetEv.update i) ∈ L.fleet.pending → L.alive i = true

theorem owned_step {junk : ℝ} {L L' : LFleet} {o : LOp} (hw : Owned L)
    (hk : ∀ i, o = .drop i → L.node i = true ∨ ∀ t, (t, FleetEv.update i) ∉ L.fleet.pending) (h : L.step junk o = .ok L') : Owned L' := by
  cases o with
  | aggregate i =>
    injection h with h; subst h
    split
    · intro t j hm
      have := hw t j hm
      unfold LFleet.alive at this ⊢
      simp only
      split
      · simp
      · exact this
    · exact hw
  | drop i =>
    injection h with h; subst h
    intro t j hm
    have := hw t j hm
    unfold LFleet.alive at this ⊢
    simp only
    split
    · rename_i hj
      subst hj
      rcases hk j rfl with hk | hk
      · simp [hk]
      · exact absurd hm (hk t)
    · exact this
  | destroy => injection h with h; subst h; intro t i hm; cases hm
  | op o =>
    rcases lstep_op h with ⟨rfl, _⟩ | ⟨_, k, rfl⟩ | ⟨_, h1, h2, h3, h4, h5⟩
    · exact hw
    · exact hw
    · intro t j hm
      have old : L.alive j = true := by
        rcases fleet_pending_step h1 hm with hm | hm | ⟨hr, hs, t0, rest, hp⟩
        · exact hw t j hm
        · exact h3 j hm
        · exact h4 j t0 rest hr hs hp
      unfold LFleet.alive at old ⊢
      rw [h2]
      rcases h5 with h5 | ⟨_, _, _, _, h5⟩
      · rw [h5]; exact old
      · rw [h5]
        simp only
        split
        · rfl
        · exact old

theorem owned_ok {junk : ℝ} {L : LFleet} {o : LOp} (hw : Owned L) : L.step junk o ≠ .fail .useAfterFree := by
  intro h
  have plain : ∀ o, L.fleet.step junk o >>= (fun F => Outcome.ok { L with fleet := F }) ≠ .fail .useAfterFree := by
    intro o hx
    rcases Outcome.bind_eq_fail.mp hx with hx | ⟨_, _, hx⟩
    · have := fleet_step_fail hx; cases this
    · cases hx
  cases o with
  | aggregate i => cases h
  | drop i => cases h
  | destroy => cases h
  | op o =>
    cases o with
    | connect => cases h
    | create a b p =>
      simp only [LFleet.step] at h
      rcases Outcome.bind_eq_fail.mp h with h | ⟨_, _, h⟩
      · have := fleet_step_fail h; cases this
      · cases h
    | run =>
      simp only [LFleet.step] at h
      split at h
      · rename_i t i rest hp
        split at h
        · rename_i hc
          have := hw t i (by rw [hp]; simp)
          simp [this] at hc
        · exact plain _ h
      · exact plain _ h
    | setPosition i v => simp only [LFleet.step, FleetOp.target] at h; split at h; exact plain _ h; cases h
    | setAltitude i v => simp only [LFleet.step, FleetOp.target] at h; split at h; exact plain _ h; cases h
    | setInclination i v => simp only [LFleet.step, FleetOp.target] at h; split at h; exact plain _ h; cases h
    | setPrecision i v => simp only [LFleet.step, FleetOp.target] at h; split at h; exact plain _ h; cases h
    | stopAfter dt => exact plain _ h
    | wait dt => exact plain _ h

/-- An object without references and an event for it. -/
structure Doomed (i : Nat) (t : Time) (L : LFleet) : Prop where
  inv : FleetInv L.fleet
  gone : L.alive i = false
  ev : (t, FleetEv.update i) ∈ L.fleet.pending

/-- The operations of `Model/Fleet` keep events other than the one they run. -/
theorem pending_kept {junk : ℝ} {F F' : Fleet} {o : FleetOp} (h : F.step junk o = .ok F') {x : Time × FleetEv} (hm : x ∈ F.pending)
    (hr : ∀ rest, o = .run → F.stopped = false → F.pending ≠ x :: rest) : x ∈ F'.pending := by
  cases o with
  | create alt inc prec =>
    simp only [Fleet.step] at h
    obtain ⟨s, _, h⟩ := Outcome.bind_eq_ok.mp h
    injection h with h
    subst h
    exact hm
  | setPosition i v => injection h with h; subst h; exact mem_pending_update _ hm
  | setAltitude i v => injection h with h; subst h; exact mem_pending_update _ hm
  | setInclination i v =>
    simp only [Fleet.step] at h
    split at h
    · cases h
    · injection h with h; subst h; exact mem_pending_update _ hm
  | setPrecision i v => injection h with h; subst h; exact hm
  | connect => injection h with h; subst h; exact hm
  | stopAfter dt => injection h with h; subst h; exact mem_insertFleetEv.mpr (Or.inr hm)
  | run =>
    simp only [Fleet.step] at h
    split at h
    · injection h with h; subst h; exact hm
    · rename_i hst
      have rest : ∀ {y rest}, F.pending = y :: rest → x ∈ rest := by
        intro y rest hp
        rw [hp] at hm
        rcases List.mem_cons.mp hm with rfl | hm
        · exact absurd hp (hr rest rfl (by simpa using hst))
        · exact hm
      split at h
      · injection h with h; subst h; exact hm
      · rename_i hp
        injection h with h; subst h
        exact mem_pending_update _ (rest hp)
      · rename_i hp
        injection h with h; subst h
        exact rest hp
  | wait dt =>
    simp only [Fleet.step] at h
    split at h
    · injection h with h; subst h; exact hm
    · split at h <;> injection h with h <;> subst h <;> exact hm

theorem doomed_step {junk : ℝ} {i : Nat} {t : Time} {L L' : LFleet} {o : LOp} (hd : Doomed i t L) (hx : o ≠ .destroy)
    (h : L.step junk o = .ok L') : Doomed i t L' := by
  refine ⟨linv_step hd.inv h, ?_, ?_⟩
  · have hg := hd.gone
    unfold LFleet.alive at hg
    rw [Bool.or_eq_false_iff] at hg
    cases o with
    | aggregate j =>
      injection h with h; subst h
      split
      · rename_i ha
        have : i ≠ j := by rintro rfl; rw [hd.gone] at ha; cases ha
        unfold LFleet.alive; simp [hg.1, hg.2, this]
      · exact hd.gone
    | drop j =>
      injection h with h; subst h
      unfold LFleet.alive; simp [hg.1, hg.2]
    | destroy => exact absurd rfl hx
    | op o =>
      rcases lstep_op h with ⟨rfl, _⟩ | ⟨_, k, rfl⟩ | ⟨_, h1, h2, h3, h4, h5⟩
      · exact hd.gone
      · exact hd.gone
      · unfold LFleet.alive
        rw [h2, hg.2]
        rcases h5 with h5 | ⟨_, _, _, _, h5⟩
        · rw [h5, hg.1]; rfl
        · have := hd.inv.idx t i hd.ev
          rw [h5]
          simp only
          rw [if_neg (by omega), hg.1]; rfl
  · cases o with
    | aggregate j => injection h with h; subst h; split <;> exact hd.ev
    | drop j => injection h with h; subst h; exact hd.ev
    | destroy => exact absurd rfl hx
    | op o =>
      rcases lstep_op h with ⟨rfl, _⟩ | ⟨_, k, rfl⟩ | ⟨_, h1, h2, h3, h4, h5⟩
      · exact hd.ev
      · exact hd.ev
      · refine pending_kept h1 hd.ev ?_
        intro rest hr hs hp
        have := h4 i t rest hr hs hp
        rw [hd.gone] at this; cases this

theorem doomed_exec {junk : ℝ} {i : Nat} {t : Time} : ∀ {ops : List LOp} {L L' : LFleet}, Doomed i t L → LOp.destroy ∉ ops →
    L.exec junk ops = .ok L' → Doomed i t L'
  | [], _, _, hd, _, h => by injection h with h; subst h; exact hd
  | o :: ops, _, _, hd, hx, h => by
    obtain ⟨L1, h1, h2⟩ := Outcome.bind_eq_ok.mp h
    exact doomed_exec (doomed_step hd (fun e => hx (by simp [e])) h1) (fun e => hx (by simp [e])) h2

/-- A model with positive precision that is updated again within its precision. -/
def Ticking (i p : Nat) (F : Fleet) : Prop :=
  (∃ m, F.mobs[i]? = some m ∧ m.prec = (p : Int)) ∧ ∃ t, (t, FleetEv.update i) ∈ F.pending ∧ t ≤ F.now + p

theorem update_prec (F : Fleet) (i j : Nat) : ((F.update j).mobs[i]?).map Mob.prec = (F.mobs[i]?).map Mob.prec := by
  unfold Fleet.update
  split
  · rfl
  · rename_i m hm
    simp only [List.getElem?_set]
    split
    · rename_i hj
      subst hj
      obtain ⟨hlt, _⟩ := List.getElem?_eq_some_iff.mp hm
      rw [if_pos hlt, hm]; rfl
    · rfl

theorem change_prec (F : Fleet) (i j : Nat) {f : Mob → Mob} (hf : ∀ m, (f m).prec = m.prec) :
    ((F.change j f).mobs[i]?).map Mob.prec = (F.mobs[i]?).map Mob.prec := by
  unfold Fleet.change
  simp only [List.getElem?_modify]
  split <;> cases F.mobs[i]? <;> simp [hf]

theorem has_prec {F : Fleet} {i : Nat} {p : Int} : (∃ m, F.mobs[i]? = some m ∧ m.prec = p) ↔ (F.mobs[i]?).map Mob.prec = some p := by
  simp [Option.map_eq_some_iff]

theorem ticking_update {F : Fleet} {i p : Nat} (hp : 0 < p) (h : ∃ m, F.mobs[i]? = some m ∧ m.prec = (p : Int)) : Ticking i p (F.update i) := by
  refine ⟨?_, ?_⟩
  · rw [has_prec, update_prec, ← has_prec]; exact h
  · obtain ⟨m, hm, hmp⟩ := h
    refine ⟨F.now + p, ?_, ?_⟩
    · simp only [Fleet.update, hm]
      rw [if_pos (by simp only [hmp]; omega)]
      refine mem_insertFleetEv.mpr (Or.inl ?_)
      simp [hmp]
    · simp only [Fleet.update, hm]; exact Nat.le_refl _

theorem update_now (F : Fleet) (i : Nat) : (F.update i).now = F.now := by unfold Fleet.update; split <;> rfl

theorem ticking_update_any {F : Fleet} {i p : Nat} (j : Nat) (h : Ticking i p F) : Ticking i p (F.update j) := by
  refine ⟨?_, ?_⟩
  · rw [has_prec, update_prec, ← has_prec]; exact h.1
  · obtain ⟨t, h1, h2⟩ := h.2
    exact ⟨t, mem_pending_update _ h1, by rw [update_now]; exact h2⟩

theorem ticking_change {F : Fleet} {i p : Nat} (j : Nat) {f : Mob → Mob} (hf : ∀ m, (f m).prec = m.prec) (h : Ticking i p F) :
    Ticking i p (F.change j f) := by
  refine ⟨?_, h.2⟩
  rw [has_prec, change_prec _ _ _ hf, ← has_prec]; exact h.1

theorem ticking_step {junk : ℝ} {F F' : Fleet} {o : FleetOp} {i p : Nat} (hi : FleetInv F) (hp : 0 < p) (ht : Ticking i p F)
    (ho : ∀ q, o ≠ .setPrecision i q) (h : F.step junk o = .ok F') : Ticking i p F' := by
  cases o with
  | create alt inc prec =>
    simp only [Fleet.step] at h
    obtain ⟨s, _, h⟩ := Outcome.bind_eq_ok.mp h
    injection h with h
    subst h
    refine ⟨?_, ht.2⟩
    obtain ⟨m, hm, hmp⟩ := ht.1
    obtain ⟨hlt, _⟩ := List.getElem?_eq_some_iff.mp hm
    exact ⟨m, by simp only; rw [List.getElem?_append_left hlt, hm], hmp⟩
  | setPosition j v => injection h with h; subst h; exact ticking_update_any _ (ticking_change _ (fun _ => rfl) ht)
  | setAltitude j v => injection h with h; subst h; exact ticking_update_any _ (ticking_change _ (fun _ => rfl) ht)
  | setInclination j v =>
    simp only [Fleet.step] at h
    split at h
    · cases h
    · injection h with h; subst h; exact ticking_update_any _ (ticking_change _ (fun _ => rfl) ht)
  | setPrecision j v =>
    injection h with h; subst h
    have hj : j ≠ i := by rintro rfl; exact ho v rfl
    refine ⟨?_, ht.2⟩
    obtain ⟨m, hm, hmp⟩ := ht.1
    exact ⟨m, by simp [Fleet.change, List.getElem?_modify, hj, hm], hmp⟩
  | connect => injection h with h; subst h; exact ht
  | stopAfter dt =>
    injection h with h; subst h
    obtain ⟨t, h1, h2⟩ := ht.2
    exact ⟨ht.1, t, mem_insertFleetEv.mpr (Or.inr h1), h2⟩
  | run =>
    simp only [Fleet.step] at h
    split at h
    · injection h with h; subst h; exact ht
    · split at h
      · injection h with h; subst h; exact ht
      · rename_i t0 j rest hpd
        injection h with h; subst h
        by_cases hj : j = i
        · subst hj; exact ticking_update hp ht.1
        · refine ticking_update_any _ ⟨ht.1, ?_⟩
          obtain ⟨t, h1, h2⟩ := ht.2
          have hf := hi.future (t0, .update j) (by rw [hpd]; simp)
          rw [hpd] at h1
          rcases List.mem_cons.mp h1 with h1 | h1
          · simp only [Prod.mk.injEq, FleetEv.update.injEq] at h1
            exact absurd h1.2.symm hj
          · refine ⟨t, h1, ?_⟩
            simp only at hf ⊢
            omega
      · rename_i t0 rest hpd
        injection h with h; subst h
        refine ⟨ht.1, ?_⟩
        obtain ⟨t, h1, h2⟩ := ht.2
        have hf := hi.future (t0, .stop) (by rw [hpd]; simp)
        rw [hpd] at h1
        rcases List.mem_cons.mp h1 with h1 | h1
        · simp at h1
        · refine ⟨t, h1, ?_⟩
          simp only at hf ⊢
          omega
  | wait dt =>
    obtain ⟨t, h1, h2⟩ := ht.2
    simp only [Fleet.step] at h
    split at h
    · injection h with h; subst h; exact ⟨ht.1, t, h1, by simp only; omega⟩
    · split at h <;> injection h with h <;> subst h
      · exact ⟨ht.1, t, h1, by simp only; omega⟩
      · exact ht

theorem ticking_lstep {junk : ℝ} {L L' : LFleet} {o : LOp} {i p : Nat} (hi : FleetInv L.fleet) (hp : 0 < p) (ht : Ticking i p L.fleet)
    (ho : ∀ q, o ≠ .op (.setPrecision i q)) (hx : o ≠ .destroy) (h : L.step junk o = .ok L') : Ticking i p L'.fleet := by
  cases o with
  | aggregate j => injection h with h; subst h; split <;> exact ht
  | drop j => injection h with h; subst h; exact ht
  | destroy => exact absurd rfl hx
  | op o =>
    rcases lstep_op h with ⟨rfl, _⟩ | ⟨_, k, rfl⟩ | ⟨_, h1, _⟩
    · exact ht
    · exact ht
    · exact ticking_step hi hp ht (fun q e => ho q (by rw [e])) h1

theorem ticking_lexec {junk : ℝ} {i p : Nat} (hp : 0 < p) : ∀ {ops : List LOp} {L L' : LFleet}, FleetInv L.fleet → Ticking i p L.fleet →
    (∀ q, LOp.op (.setPrecision i q) ∉ ops) → LOp.destroy ∉ ops → L.exec junk ops = .ok L' → Ticking i p L'.fleet
  | [], _, _, _, ht, _, _, h => by injection h with h; subst h; exact ht
  | o :: ops, _, _, hi, ht, ho, hx, h => by
    obtain ⟨L1, h1, h2⟩ := Outcome.bind_eq_ok.mp h
    exact ticking_lexec hp (linv_step hi h1) (ticking_lstep hi hp ht (fun q e => ho q (by simp [e])) (fun e => hx (by simp [e])) h1)
      (fun q e => ho q (by simp [e])) (fun e => hx (by simp [e])) h2

/-! ### Devices -/

/-- Attached devices are in the list of their channel, and so are devices with a completion event. -/
structure Linked (s : Sys) : Prop where
  att : ∀ d c, (s.dev d).chan = some c → d ∈ (s.chan c).link
  ev : ∀ p ∈ s.pending, ∀ d dest, p.act = .txComplete d dest → ∃ c, d ∈ (s.chan c).link

theorem linked_initial {s : Sys} (h : Initial s) : Linked s :=
  ⟨fun d c hc => (by rw [(h.idle d).2.2.2.2] at hc; cases hc), fun p hp => (by rw [h.pending] at hp; cases hp)⟩

/-- Changes that concern neither channels nor which channel a device has. -/
theorem Linked.of_same {s s' : Sys} (h : Linked s) (h1 : ∀ d, (s'.dev d).chan = (s.dev d).chan) (h2 : s'.chan = s.chan)
    (h3 : ∀ p ∈ s'.pending, p ∈ s.pending) : Linked s' :=
  ⟨fun d c hc => by rw [h2]; exact h.att d c (by rw [← h1]; exact hc), fun p hp d dest e => by rw [h2]; exact h.ev p (h3 p hp) d dest e⟩

theorem linked_transmitStart {E : Env} {s s' : Sys} {d : DevId} {f : Bytes} {dest : Addr} (hl : Linked s)
    (h : transmitStart E s d f dest = .ok s') : Linked s' := by
  obtain ⟨_, c, src, rs, b, hc, _, _, rfl⟩ := transmitStart_ok h
  refine ⟨?_, ?_⟩
  · intro x c' hx
    refine hl.att x c' ?_
    rw [← hx]
    simp only [txState]
    split
    · rename_i e; subst e; rfl
    · rfl
  · intro p hp x dest' e
    simp only [txState] at hp ⊢
    rcases mem_insertAll.mp hp with hp | hp
    · obtain ⟨r, _, rfl⟩ := List.mem_map.mp hp
      cases e
    · rcases mem_insertPending.mp hp with rfl | hp
      · simp only [Action.txComplete.injEq] at e
        obtain ⟨rfl, _⟩ := e
        exact ⟨c, hl.att _ c hc⟩
      · exact hl.ev p hp x dest' e

theorem linked_setDev {s : Sys} (hl : Linked s) {d : DevId} {v : Dev} (hv : v.chan = (s.dev d).chan ∨ v.chan = none) :
    Linked (s.setDev d v) := by
  refine ⟨?_, hl.ev⟩
  intro x c hx
  simp only [Sys.setDev] at hx ⊢
  split at hx
  · rename_i e
    subst e
    rcases hv with hv | hv
    · rw [hv] at hx; exact hl.att _ c hx
    · rw [hv] at hx; cases hx
  · exact hl.att x c hx

theorem linked_step {E : Env} {s s' : Sys} {o : Op} (hl : Linked s) (h : step E s o = .ok s') : Linked s' := by
  cases o with
  | send d p dest proto =>
    rcases send_ok h with ⟨_, rfl⟩ | ⟨_, _, m, _, f, _, ⟨_, rfl⟩ | ⟨_, _, rfl⟩ | ⟨_, _, g, rest, s3, _, h3, rfl⟩⟩
    · exact ⟨hl.att, hl.ev⟩
    · exact ⟨hl.att, hl.ev⟩
    · refine hl.of_same (fun x => ?_) rfl (fun _ hp => hp)
      simp only
      split
      · rename_i e; subst e; rfl
      · rfl
    · have := linked_transmitStart ?_ h3
      · exact ⟨this.att, this.ev⟩
      · refine hl.of_same (fun x => ?_) rfl (fun _ hp => hp)
        simp only
        split
        · rename_i e; subst e; rfl
        · rfl
  | sendFrom d p src dest proto => injection h with h; subst h; exact ⟨hl.att, hl.ev⟩
  | attach d c =>
    obtain ⟨g, t, _, rfl⟩ := attach_ok h
    have mono : ∀ x c', x ∈ (s.chan c').link →
        x ∈ (if c' = c then { s.chan c with link := (s.chan c).link ++ [d], gnd := g, sat := t } else s.chan c').link := by
      intro x c' hx
      split
      · rename_i e; subst e; exact List.mem_append_left _ hx
      · exact hx
    refine ⟨?_, ?_⟩
    · intro x c' hx
      simp only at hx ⊢
      split at hx
      · rename_i e
        subst e
        injection hx with hx
        subst hx
        simp
      · exact mono x c' (hl.att x c' hx)
    · intro p hp x dest e
      obtain ⟨c', hc'⟩ := hl.ev p hp x dest e
      exact ⟨c', mono x c' hc'⟩
  | detach c slot =>
    have key : ∀ (g t : List (Mac48 × DevId)) (dv : DevId → Dev) (lg : List (Time × Ev)), (∀ x, (dv x).chan = (s.dev x).chan) →
        Linked { s with dev := dv, chan := fun x => if x = c then { s.chan c with gnd := g, sat := t } else s.chan x, log := lg } := by
      intro g t dv lg hdv
      have mono : ∀ x c', x ∈ (s.chan c').link → x ∈ (if c' = c then { s.chan c with gnd := g, sat := t } else s.chan c').link := by
        intro x c' hx
        split
        · rename_i e; subst e; exact hx
        · exact hx
      refine ⟨fun x c' hx => mono x c' (hl.att x c' (by rw [← hdv]; exact hx)), fun p hp x dest e => ?_⟩
      obtain ⟨c', hc'⟩ := hl.ev p hp x dest e
      exact ⟨c', mono x c' hc'⟩
    obtain ⟨g, t, _, ⟨d, _, _, rfl⟩ | ⟨_, rfl⟩⟩ := detach_ok h
    · refine key g t _ _ (fun x => ?_)
      split
      · rename_i e; subst e; rfl
      · rfl
    · exact key g t s.dev _ (fun _ => rfl)
  | setAddress d a =>
    simp only [step] at h
    split at h
    · injection h with h; subst h; exact linked_setDev hl (Or.inl rfl)
    · cases h
  | setSide d x => injection h with h; subst h; exact linked_setDev hl (Or.inl rfl)
  | setRate d x => injection h with h; subst h; exact linked_setDev hl (Or.inl rfl)
  | setGap d x => injection h with h; subst h; exact linked_setDev hl (Or.inl rfl)
  | setMtu d x => injection h with h; subst h; exact linked_setDev hl (Or.inl rfl)
  | setTxPower d x => injection h with h; subst h; exact linked_setDev hl (Or.inl rfl)
  | setRxThreshold d x => injection h with h; subst h; exact linked_setDev hl (Or.inl rfl)
  | setRxGain d x => injection h with h; subst h; exact linked_setDev hl (Or.inl rfl)
  | setRxLoss d x => injection h with h; subst h; exact linked_setDev hl (Or.inl rfl)
  | setPromisc d x => injection h with h; subst h; exact linked_setDev hl (Or.inl rfl)
  | run =>
    simp only [step, run] at h
    split at h
    · injection h with h; subst h; exact hl
    · rename_i p ps hp
      have hl1 : Linked { s with now := p.time, pending := ps } :=
        hl.of_same (fun _ => rfl) rfl (fun q hq => by rw [hp]; exact List.mem_cons_of_mem _ hq)
      obtain ⟨t, a⟩ := p
      cases a with
      | receive dst f src rx =>
        obtain ⟨l, _, rfl⟩ := receive_ok h
        exact ⟨hl1.att, hl1.ev⟩
      | txComplete d dest =>
        obtain ⟨_, _, f, _, ⟨_, rfl⟩ | ⟨g, rest, _, h3⟩⟩ := transmitComplete_ok h
        · refine hl1.of_same (fun x => ?_) rfl (fun _ hp => hp)
          simp only
          split
          · rename_i e; subst e; rfl
          · rfl
        · refine linked_transmitStart ?_ h3
          refine hl1.of_same (fun x => ?_) rfl (fun _ hp => hp)
          simp only
          split
          · rename_i e; subst e; rfl
          · rfl
  | wait dt =>
    simp only [step] at h
    split at h <;> injection h with h <;> subst h
    · exact ⟨hl.att, hl.ev⟩
    · exact hl

theorem linked_stepD {E : Env} {s s' : DSys} {o : DOp} (hl : Linked s.sys) (h : stepD E s o = .ok s') : Linked s'.sys := by
  cases o with
  | dispose d => injection h with h; subst h; exact linked_setDev hl (Or.inr rfl)
  | op o =>
    obtain ⟨t, h1, h2⟩ := Outcome.bind_eq_ok.mp h
    injection h2 with h2; subst h2
    exact linked_step hl h1

/-- The next event, if it is a completion, finds its device. -/
theorem linked_alive {s : OSys} (hl : Linked s.sys.sys) {p : Pending} (hp : p ∈ s.sys.sys.pending) {d : DevId} {dest : Addr}
    (e : p.act = .txComplete d dest) : s.Alive d := Or.inr (Or.inl (hl.ev p hp d dest e))

/-- With all completions finding their devices, an operation is the one of `Model/Dispose`. -/
theorem stepO_op {E : Env} {s : OSys} (hl : Linked s.sys.sys) (o : DOp) :
    stepO E s (.op o) = (stepD E s.sys o >>= fun t => .ok { s with sys := t }) := by
  unfold stepO
  split
  · rename_i h; cases h
  · rename_i h
    injection h with h
    subst h
    split
    · rename_i t d dest rest hp
      rw [if_pos (linked_alive hl (p := ⟨t, .txComplete d dest⟩) (by rw [hp]; simp) rfl)]
    · rfl
  · rename_i h
    injection h with h
    subst h
    rfl

end Verif
