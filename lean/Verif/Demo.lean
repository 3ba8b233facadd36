import Verif.Model.Net
/-!
# Concrete systems used to show that hypotheses of the theorems are met

Not part of the model: only examples and counterexamples use these definitions.
-/

namespace Verif.Demo

/-- No positions, no loss, no delay, no checksums, one time unit per byte. -/
def env : Env where
  hasMob := fun _ => false
  loss := fun _ => none
  delay := fun _ => none
  fcs := ⟨false, fun _ => 0⟩
  txTime := fun _ n => n
  corrupt := fun _ _ _ _ => false

/-- Address ending in `n`. -/
def mac (n : UInt8) : Mac48 := ⟨0, 0, 0, 0, 0, n⟩

/-- Devices with even number on the ground, odd ones in space, all on their own node; channel 0 is a
LEO channel, all others ISL channels; queues hold two packets. -/
def sys : Sys where
  dev := fun d => { Dev.fresh true (if d % 2 = 0 then .gnd else .sat) d (mac (UInt8.ofNat (d + 1))) with cap := 2 }
  chan := fun c => ⟨if c = 0 then .leo else .isl, [], [], []⟩
  now := 0
  pending := []
  log := []

theorem sys_initial : Initial sys :=
  ⟨fun _ => ⟨rfl, rfl, rfl, rfl, rfl⟩, fun _ => ⟨rfl, rfl, rfl⟩, rfl, rfl⟩

/-- Result of a history as an option. -/
def result (E : Env) (s : Sys) (ops : List Op) : Option Sys :=
  match exec E s ops with
  | .ok s' => some s'
  | .fail _ => none

theorem exec_of_result {E : Env} {s s' : Sys} {ops : List Op} (h : result E s ops = some s') :
    exec E s ops = .ok s' := by
  unfold result at h
  split at h
  · rename_i h1; injection h with h; rw [h1, h]
  · cases h

/-- The history runs through. -/
def runs (E : Env) (s : Sys) (ops : List Op) : Bool := (result E s ops).isSome

/-- Every history that runs through has a final state. -/
theorem exists_of_runs {E : Env} {s : Sys} {ops : List Op} (h : runs E s ops = true) :
    ∃ s', exec E s ops = .ok s' := by
  unfold runs at h
  obtain ⟨s', h'⟩ := Option.isSome_iff_exists.mp h
  exact ⟨s', exec_of_result h'⟩

/-- A decidable test of the final state of a history. -/
def check (E : Env) (s : Sys) (ops : List Op) (test : Sys → Bool) : Bool :=
  match result E s ops with
  | some s' => test s'
  | none => false

theorem exists_of_check {E : Env} {s : Sys} {ops : List Op} {test : Sys → Bool}
    (h : check E s ops test = true) : ∃ s', exec E s ops = .ok s' ∧ test s' = true := by
  unfold check at h
  split at h
  · rename_i s' h'; exact ⟨s', exec_of_result h', h⟩
  · cases h

/-- The fault that ends a history, if any. -/
def fault (E : Env) (s : Sys) (ops : List Op) : Option Fault :=
  match exec E s ops with
  | .ok _ => none
  | .fail e => some e

theorem exec_of_fault {E : Env} {s : Sys} {ops : List Op} {e : Fault} (h : fault E s ops = some e) :
    exec E s ops = .fail e := by
  unfold fault at h
  split at h
  · cases h
  · rename_i h1; injection h with h; rw [h1, h]

end Verif.Demo
