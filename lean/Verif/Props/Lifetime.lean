import Verif.Lemmas.Lifetime
import Verif.Demo
/-!
# Events find the objects they were scheduled for (C106)
-/

namespace Verif
open Real

/-- **C106, mobility models, what holds**: if a program gives up its pointer to a mobility model only when the model is aggregated to a node
or has no update pending, no update runs on a destroyed model.  `Simulator::Destroy` may be called at any time. -/
theorem C106_satellites_alive_partial {junk : ℝ} {ops : List LOp}
    (hk : ∀ o1 i o2 L, ops = o1 ++ .drop i :: o2 → LFleet.empty.exec junk o1 = .ok L →
      L.node i = true ∨ ∀ t, (t, FleetEv.update i) ∉ L.fleet.pending) :
    LFleet.empty.exec junk ops ≠ .fail .useAfterFree ∧
    ∀ L, LFleet.empty.exec junk ops = .ok L → ∀ t i, (t, FleetEv.update i) ∈ L.fleet.pending → L.alive i = true := by
  have key : ∀ (post pre : List LOp) (L : LFleet), ops = pre ++ post → LFleet.empty.exec junk pre = .ok L → Owned L →
      L.exec junk post ≠ .fail .useAfterFree ∧ ∀ L', L.exec junk post = .ok L' → Owned L' := by
    intro post
    induction post with
    | nil =>
      intro pre L _ _ hw
      refine ⟨by simp [LFleet.exec], fun L' h => ?_⟩
      injection h with h; subst h; exact hw
    | cons o post ih =>
      intro pre L hops hL hw
      simp only [LFleet.exec]
      cases h1 : L.step junk o with
      | fail x =>
        refine ⟨?_, fun L' h => by cases h⟩
        simp only [Outcome.fail_bind, ne_eq, Outcome.fail.injEq]
        rintro rfl
        exact owned_ok hw h1
      | ok L1 =>
        simp only [Outcome.ok_bind]
        refine ih (pre ++ [o]) L1 (by rw [hops]; simp) ?_ (owned_step hw (fun i e => ?_) h1)
        · rw [lexec_append, hL]; simp [LFleet.exec, h1]
        · subst e; exact hk pre i post L hops hL
  exact key ops [] LFleet.empty rfl rfl (by intro t i hm; cases hm)

/-- A satellite is created, aggregated and placed, the variable goes out of scope and the simulation runs. -/
example (junk : ℝ) : ∃ L, LFleet.empty.exec junk [.op (.create 1000 10 5), .aggregate 0, .op (.setPosition 0 ⟨0, 0, 0⟩), .drop 0, .op .run] = .ok L ∧
    L.fleet.now = 5 ∧ L.alive 0 = true := by
  simp [LFleet.exec, LFleet.step, Fleet.step, Sat.create, Sat.setAltitude, Sat.setInclination, Sat.update, Fleet.update, Fleet.change, insertFleetEv,
    insertTime, FleetOp.target, LFleet.alive, LFleet.empty, Fleet.empty]

/-- A satellite with precision 0 has no updates pending. -/
example (junk : ℝ) : ∃ L, LFleet.empty.exec junk [.op (.create 1000 10 0), .op (.setPosition 0 ⟨0, 0, 0⟩)] = .ok L ∧
    L.node 0 = false ∧ L.fleet.pending = [] := by
  simp [LFleet.exec, LFleet.step, Fleet.step, Sat.create, Sat.setAltitude, Sat.setInclination, Sat.update, Fleet.update, Fleet.change,
    FleetOp.target, LFleet.alive, LFleet.empty, Fleet.empty]

/-- **C106, mobility models, what happens otherwise**: let a setter be called on a model with positive precision `p`, as every placement of a
satellite does.  If the model is destroyed while `Simulator::Run` goes on, simulated time does not get beyond `p` later: whatever the
program does, the execution ends with a call on a destroyed object before, unless `Simulator::Destroy` drops the event. -/
theorem C106_destroyed_satellite_is_fatal {junk : ℝ} {o1 o2 o3 : List LOp} {o : FleetOp} {i p : Nat} {L0 L L' : LFleet} (hp : 0 < p)
    (h0 : LFleet.empty.exec junk o1 = .ok L0) (hm : ∃ m, L0.fleet.mobs[i]? = some m ∧ m.prec = (p : Int)) (ha : L0.alive i = true)
    (ho : (∃ v, o = .setPosition i v) ∨ (∃ x, o = .setAltitude i x) ∨ ∃ x, o = .setInclination i x)
    (h1 : L0.exec junk (.op o :: o2) = .ok L) (hq : ∀ q, LOp.op (.setPrecision i q) ∉ o2) (hd : LOp.destroy ∉ o2)
    (hg : L.alive i = false) (hd' : LOp.destroy ∉ o3) (h2 : L.exec junk o3 = .ok L') : L'.fleet.now ≤ L.fleet.now + p := by
  have i0 : FleetInv L0.fleet := linv_exec fleetInv_empty h0
  obtain ⟨L1, hs, he⟩ := Outcome.bind_eq_ok.mp h1
  have i1 := linv_step i0 hs
  have ht : Ticking i p L1.fleet := by
    have hset : ∀ (f : Mob → Mob), (∀ m, (f m).prec = m.prec) → Ticking i p ((L0.fleet.change i f).update i) := by
      intro f hf
      refine ticking_update hp ?_
      rw [has_prec, change_prec _ _ _ hf, ← has_prec]; exact hm
    rcases lstep_op hs with ⟨_, j, hj, hj'⟩ | ⟨hc, _⟩ | ⟨_, h3, _⟩
    · have : j = i := by
        rcases ho with ⟨v, rfl⟩ | ⟨x, rfl⟩ | ⟨x, rfl⟩ <;> simpa [FleetOp.target] using hj.symm
      rw [this, ha] at hj'; cases hj'
    · rcases ho with ⟨v, rfl⟩ | ⟨x, rfl⟩ | ⟨x, rfl⟩ <;> cases hc
    · rcases ho with ⟨v, rfl⟩ | ⟨x, rfl⟩ | ⟨x, rfl⟩
      · injection h3 with h3; rw [← h3]; exact hset _ (fun _ => rfl)
      · injection h3 with h3; rw [← h3]; exact hset _ (fun _ => rfl)
      · simp only [Fleet.step] at h3
        split at h3
        · cases h3
        · injection h3 with h3; rw [← h3]; exact hset _ (fun _ => rfl)
  have i2 := linv_exec i1 he
  obtain ⟨_, t, ht1, ht2⟩ := ticking_lexec hp i1 ht hq hd he
  have hf := doomed_exec ⟨i2, hg, ht1⟩ hd' h2
  have := hf.inv.future _ hf.ev
  simp only at this
  omega

/-- The first of the tests: afterwards the model does not exist any more, and time can pass up to its update. -/
example (junk : ℝ) : ∃ L, LFleet.empty.exec junk [.op (.create 1000 10 5), .op (.setAltitude 0 0), .drop 0, .op (.wait 5)] = .ok L ∧
    L.alive 0 = false ∧ L.fleet.now = 5 := by
  simp [LFleet.exec, LFleet.step, Fleet.step, Sat.create, Sat.setAltitude, Sat.setInclination, Sat.update, Fleet.update, Fleet.change, insertFleetEv,
    insertTime, FleetOp.target, LFleet.alive, LFleet.empty, Fleet.empty]

/-- **C106 is false for models without a node**: the repository's own tests destroy mobility models that have updates pending and then run
the simulator, which calls `Update` on a destroyed object at time 1 s. -/
theorem C106_orbit_tests_use_after_free (junk : ℝ) : LFleet.empty.exec junk orbitTests = .fail .useAfterFree := by
  simp [orbitTests, LFleet.exec, LFleet.step, Fleet.step, Sat.create, Sat.setAltitude, Sat.setInclination, Sat.update, Fleet.update, Fleet.change,
    insertFleetEv, insertTime, FleetOp.target, LFleet.alive, LFleet.empty, Fleet.empty]

/-- **C106, devices**: whatever happens to devices, also if node and program give up their pointers and devices are disposed of, every
completion event finds its device: the channel a device was attached to keeps it. -/
theorem C106_completion_finds_device {E : Env} {s0 : Sys} {held : DevId → Bool} {ops : List OOp} {s : OSys} (h0 : Initial s0)
    (h : execO E ⟨DSys.start s0, held⟩ ops = .ok s) {p : Pending} (hp : p ∈ s.sys.sys.pending) {d : DevId} {dest : Addr}
    (e : p.act = .txComplete d dest) : s.Alive d := by
  have key : ∀ (ops : List OOp) (s1 : OSys), Linked s1.sys.sys → execO E s1 ops = .ok s → Linked s.sys.sys := by
    intro ops
    induction ops with
    | nil => intro s1 hl h; injection h with h; subst h; exact hl
    | cons o ops ih =>
      intro s1 hl h
      obtain ⟨s2, h1, h2⟩ := Outcome.bind_eq_ok.mp h
      refine ih s2 ?_ h2
      cases o with
      | release d => injection h1 with h1; subst h1; exact hl
      | op o =>
        rw [stepO_op hl] at h1
        obtain ⟨t, h3, h4⟩ := Outcome.bind_eq_ok.mp h1
        injection h4 with h4; subst h4
        exact linked_stepD hl h3
  exact linked_alive (key ops _ (linked_initial h0) h) hp e

/-- A device that nobody but its channel has a pointer to, while it is transmitting. -/
example : ∃ s, execO Demo.env ⟨DSys.start Demo.sys, fun _ => true⟩ [.op (.op (.attach 0 1)), .op (.op (.attach 1 1)),
    .op (.op (.send 0 [1] (.mac (Demo.mac 2)) 1)), .op (.dispose 0), .release 0] = .ok s ∧ s.held 0 = false ∧ s.sys.gone 0 = true ∧
    s.sys.sys.pending.any (fun p => p.act == .txComplete 0 (.mac (Demo.mac 2))) = true := by
  refine ⟨_, rfl, rfl, rfl, ?_⟩
  decide +kernel

/-- So giving up pointers to devices never changes anything: the history has the same result, or ends with the same fault, as without. -/
theorem C106_release_is_harmless {E : Env} {s0 : Sys} {held : DevId → Bool} {ops : List OOp} (h0 : Initial s0) :
    (∀ s, execO E ⟨DSys.start s0, held⟩ ops = .ok s → execD E (DSys.start s0) (OOp.plain ops) = .ok s.sys) ∧
    ∀ x, execO E ⟨DSys.start s0, held⟩ ops = .fail x → execD E (DSys.start s0) (OOp.plain ops) = .fail x := by
  have key : ∀ (ops : List OOp) (s1 : OSys), Linked s1.sys.sys →
      (∀ s, execO E s1 ops = .ok s → execD E s1.sys (OOp.plain ops) = .ok s.sys) ∧
      ∀ x, execO E s1 ops = .fail x → execD E s1.sys (OOp.plain ops) = .fail x := by
    intro ops
    induction ops with
    | nil =>
      intro s1 _
      refine ⟨fun s h => ?_, fun x h => by cases h⟩
      injection h with h; subst h; rfl
    | cons o ops ih =>
      intro s1 hl
      cases o with
      | release d => exact ih { s1 with held := fun x => if x = d then false else s1.held x } hl
      | op o =>
        simp only [execO, OOp.plain, execD]
        rw [stepO_op hl]
        cases h1 : stepD E s1.sys o with
        | fail x => exact ⟨fun s h => (by cases h), fun y h => (by simpa using h)⟩
        | ok t => exact ih { s1 with sys := t } (linked_stepD hl h1)
  exact key ops _ (linked_initial h0)

end Verif
