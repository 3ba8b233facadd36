import Verif.Lemmas.World2
import Verif.Props.Coverage
/-!
# Network and satellites in one simulation: simulation relations (C109)
-/

namespace Verif
open Spec Real

/-- Network and satellites agree about the time. -/
structure Joint (junk : ℝ) (X : ExampleNet) (W : World) : Prop where
  clock : ClockInv W.net
  flown : Flown junk X W.fleet
  now : W.fleet.now = W.net.now

theorem all_le {l : List (Time × FleetEv)} {t : Time} (h : (l.all fun e => decide (t ≤ e.1)) = true) : ∀ e ∈ l, t ≤ e.1 := by
  intro e he
  simpa using List.all_eq_true.mp h e he

theorem joint_net {junk : ℝ} {X : ExampleNet} {W : World} (hW : Joint junk X W) {E : Env} {op : Op} {s : Sys}
    (hdue : ∀ e ∈ W.fleet.pending, W.net.timeOf op ≤ e.1) (hinv : FleetInv W.fleet) (hs : step E W.net op = .ok s) :
    Joint junk X ⟨s, { W.fleet with now := s.now }⟩ := by
  obtain ⟨h1, h2⟩ := clock_step hW.clock hs
  refine ⟨h1, hW.flown.now (by rw [hW.now]; exact h2.now) ?_, rfl⟩
  intro e he
  rcases step_now hs with h | ⟨_, rfl⟩
  · rw [h]; exact hdue e he
  · rw [← hW.now]; exact hinv.future e he

theorem joint_update {junk : ℝ} {X : ExampleNet} {W : World} (hW : Joint junk X W) {P : Int} {N : Nat} (hfl : Flight P N W.fleet)
    {e : Time × FleetEv} {rest : List (Time × FleetEv)} (hp : W.fleet.pending = e :: rest)
    (hq : ∀ p ∈ W.net.pending, e.1 ≤ p.time) :
    ∃ F, W.fleet.step junk .run = .ok F ∧ F.now = e.1 ∧ W.net.now ≤ e.1 ∧ Joint junk X ⟨{ W.net with now := F.now }, F⟩ ∧
      ∃ i, F.pending = insertFleetEv (e.1 + P.toNat) (.update i) rest := by
  obtain ⟨t, ev⟩ := e
  obtain ⟨i, hi⟩ := hfl.only (t, ev) (by rw [hp]; exact List.mem_cons_self)
  simp only at hi
  subst hi
  have hr := flight_run hfl hp junk
  obtain ⟨_, hn, hpe⟩ := flight_update hfl hp
  have hle : W.net.now ≤ t := by
    rw [← hW.now]
    exact hfl.inv.future (t, .update i) (by rw [hp]; exact List.mem_cons_self)
  refine ⟨_, hr, hn, hle, ⟨⟨hW.clock.sorted, ?_⟩, hW.flown.snoc (Or.inl rfl) hr, rfl⟩, i, hpe⟩
  intro p hpp
  simp only [hn]
  exact hq p hpp

theorem seen_flown {junk : ℝ} {a : ExampleArgs} {s : Sys} {X : ExampleNet} (h : exampleMain junk a s = .ok X)
    (ho : ∀ o ∈ a.orbits, Installable o) {v : ℝ} {r : ℝ → Time} {E : Env} : ∀ (ops : List WorldOp) (W : World), Joint junk X W →
    Witnessed junk X (seen junk X v r E W ops)
  | [], W, _ => by intro t l hm; cases hm
  | op :: ops, W, hW => by
    intro t l hm
    have hfl := flight_of h ho hW.flown
    rw [seen] at hm
    cases hst : W.step junk X v r E op with
    | fail _ => rw [hst] at hm; cases hm
    | ok W' =>
      rw [hst] at hm
      have hW' : Joint junk X W' := by
        cases op with
        | net o =>
          simp only [World.step] at hst
          split at hst
          · rename_i hdue
            obtain ⟨s', hs', e⟩ := Outcome.bind_eq_ok.mp hst
            injection e with e
            rw [← e]
            exact joint_net hW (all_le hdue) hfl.inv hs'
          · injection hst with e; rw [← e]; exact hW
        | update =>
          simp only [World.step] at hst
          split at hst
          · injection hst with e; rw [← e]; exact hW
          · rename_i e rest hp
            split at hst
            · rename_i hq
              obtain ⟨F, hF, _, _, hJ, _⟩ := joint_update hW hfl hp (fun p hp => by simpa using List.all_eq_true.mp hq p hp)
              rw [hF, Outcome.ok_bind] at hst
              injection hst with e; rw [← e]; exact hJ
            · injection hst with e; rw [← e]; exact hW
      rcases List.mem_append.mp hm with hm | hm
      · cases op with
        | net o =>
          simp only at hm
          split at hm
          · simp only [List.mem_singleton, Prod.mk.injEq] at hm
            obtain ⟨rfl, rfl⟩ := hm
            exact ⟨W'.fleet, hW'.flown, rfl, rfl⟩
          · cases hm
        | update => cases hm
      · exact seen_flown h ho ops W' hW' t l hm

theorem notWait_filter_cons (op : Op) (ops : List Op) : (op :: ops).filter (fun o => !isWait o) =
    (if isWait op then [] else [op]) ++ ops.filter (fun o => !isWait o) := by
  by_cases h : isWait op <;> simp [List.filter_cons, h]

theorem world_plain {junk : ℝ} {a : ExampleArgs} {s : Sys} {X : ExampleNet} (h : exampleMain junk a s = .ok X)
    (ho : ∀ o ∈ a.orbits, Installable o) {v : ℝ} {r : ℝ → Time} {E : Env} {S : List (Time × List Vec)} (hS : SeenOnce S) :
    ∀ (ops : List WorldOp) (W W' : World), Joint junk X W → (∀ x ∈ seen junk X v r E W ops, x ∈ S) → W.exec junk X v r E ops = .ok W' →
    Joint junk X W' ∧ ∃ ops', exec ((skyWith a X v r S).env E) W.net ops' = .ok W'.net ∧
      (ops'.filter fun o => !isWait o).Sublist ((trafficOf ops).filter fun o => !isWait o)
  | [], W, W', hW, _, hx => by
    injection hx with hx
    subst hx
    exact ⟨hW, [], rfl, List.Sublist.refl _⟩
  | op :: ops, W, W', hW, hseen, hx => by
    have hfl := flight_of h ho hW.flown
    rw [World.exec] at hx
    obtain ⟨W1, h1, h2⟩ := Outcome.bind_eq_ok.mp hx
    rw [seen, h1] at hseen
    have hrest : ∀ x ∈ seen junk X v r E W1 ops, x ∈ S := fun x hx => hseen x (List.mem_append_right _ hx)
    cases op with
    | net o =>
      have hno : trafficOf (.net o :: ops) = o :: trafficOf ops := rfl
      simp only [World.step] at h1
      split at h1
      · rename_i hdue
        have hdue := all_le hdue
        obtain ⟨s', hs', e⟩ := Outcome.bind_eq_ok.mp h1
        injection e with e
        subst e
        obtain ⟨g1, ops', g2, g3⟩ := world_plain h ho hS ops _ W' (joint_net hW hdue hfl.inv hs') hrest h2
        refine ⟨g1, o :: ops', ?_, ?_⟩
        · rw [exec]
          have hag : step ((X.sky v r W.fleet).env E) W.net o = step ((skyWith a X v r S).env E) W.net o := by
            refine step_agree fun hm => ?_
            have hnow : s'.now = W.net.timeOf o := by
              rcases step_now hs' with e | ⟨e, _⟩
              · exact e
              · cases o <;> simp [isWait, mayTransmit] at e hm
            refine skyWith_seen hS hfl.len (hseen _ (List.mem_append_left _ ?_)) v r
            simp only [hm, if_true, List.mem_singleton, hnow]
          rw [← hag, hs']
          exact g2
        · rw [hno, notWait_filter_cons, notWait_filter_cons]
          exact (List.Sublist.refl _).append g3
      · injection h1 with e
        subst e
        obtain ⟨g1, ops', g2, g3⟩ := world_plain h ho hS ops _ W' hW hrest h2
        refine ⟨g1, ops', g2, ?_⟩
        rw [hno, notWait_filter_cons]
        exact g3.trans (List.sublist_append_right _ _)
    | update =>
      have hno : trafficOf (.update :: ops) = trafficOf ops := rfl
      rw [hno]
      simp only [World.step] at h1
      split at h1
      · injection h1 with e
        subst e
        exact world_plain h ho hS ops _ W' hW hrest h2
      · rename_i e rest hp
        split at h1
        · rename_i hq
          have hq : ∀ p ∈ W.net.pending, e.1 ≤ p.time := fun p hp => by simpa using List.all_eq_true.mp hq p hp
          obtain ⟨F, hF, hnow, hle, hJ, _⟩ := joint_update hW hfl hp hq
          rw [hF, Outcome.ok_bind] at h1
          injection h1 with e1
          subst e1
          obtain ⟨g1, ops', g2, g3⟩ := world_plain h ho hS ops _ W' hJ hrest h2
          refine ⟨g1, .wait (e.1 - W.net.now) :: ops', ?_, ?_⟩
          · rw [exec]
            have hd : W.net.now + (e.1 - W.net.now) = e.1 := Nat.add_sub_cancel' hle
            have : step ((skyWith a X v r S).env E) W.net (.wait (e.1 - W.net.now)) = .ok { W.net with now := F.now } := by
              simp only [step, hd, hnow]
              rw [if_pos]
              rw [List.all_eq_true]
              exact fun p hp => by simpa using hq p hp
            rw [this]
            exact g2
          · rw [notWait_filter_cons]
            exact g3
        · injection h1 with e
          subst e
          exact world_plain h ho hS ops _ W' hW hrest h2

/-! ### The start -/

theorem installOne_now {f : DevFactory} {qf : QueueFactory} {c : ChanId} {n : NodeId} {b b' : Build} {d : DevId}
    (e : Build.installOne f qf c n b = .ok (b', d)) : b'.sys.now = b.sys.now := by
  unfold Build.installOne at e
  simp only at e
  rw [Outcome.bind_eq_ok] at e
  obtain ⟨s, ha, e⟩ := e
  injection e with e
  injection e with e _
  subst e
  obtain ⟨g, t, _, rfl⟩ := attach_ok ha
  rfl

theorem installAll_now {f : DevFactory} {qf : QueueFactory} {c : ChanId} {ns : List NodeId} {b b' : Build} {l : List DevId}
    (e : Build.installAll f qf c ns b = .ok (b', l)) : b'.sys.now = b.sys.now := by
  induction ns generalizing b l with
  | nil => injection e with e; injection e with e _; subst e; rfl
  | cons n ns ih =>
    obtain ⟨⟨b1, d⟩, e1, e⟩ := Outcome.bind_eq_ok.mp e
    obtain ⟨⟨b2, l2⟩, e2, e⟩ := Outcome.bind_eq_ok.mp e
    injection e with e
    injection e with e _
    subst e
    exact (ih e2).trans (installOne_now e1)

theorem example_now {junk : ℝ} {a : ExampleArgs} {s : Sys} {X : ExampleNet} (h : exampleMain junk a s = .ok X) : X.build.sys.now = s.now := by
  have leo : ∀ {h : LeoChannelHelper} {sats gnds : List NodeId} {b b' : Build} {l : List DevId}, h.install sats gnds b = .ok (b', l) →
      b'.sys.now = b.sys.now := by
    intro h sats gnds b b' l e
    unfold LeoChannelHelper.install at e
    obtain ⟨⟨b1, l1⟩, e1, e⟩ := Outcome.bind_eq_ok.mp e
    obtain ⟨⟨b2, l2⟩, e2, e⟩ := Outcome.bind_eq_ok.mp e
    injection e with e
    injection e with e _
    subst e
    have e1' := installAll_now e1
    exact (installAll_now e2).trans e1'
  unfold exampleMain at h
  obtain ⟨F, _, h⟩ := Outcome.bind_eq_ok.mp h
  obtain ⟨g, _, h⟩ := Outcome.bind_eq_ok.mp h
  obtain ⟨c, _, h⟩ := Outcome.bind_eq_ok.mp h
  obtain ⟨⟨u, ul⟩, h1, h⟩ := Outcome.bind_eq_ok.mp h
  have hu : u.sys.now = s.now := leo h1
  split at h
  · obtain ⟨⟨w, wl⟩, h2, h⟩ := Outcome.bind_eq_ok.mp h
    injection h with h
    subst h
    unfold IslHelper.install at h2
    have h2' := installAll_now h2
    exact h2'.trans hu
  · injection h with h
    subst h
    exact hu

theorem joint_start {junk : ℝ} {a : ExampleArgs} {p : Preset} (hp : p ∈ presets) (hn : a.constellation = p.name)
    (ho : ∀ o ∈ a.orbits, Installable o) (hm : 2 * (places a.orbits).length + a.lonGws * a.latGws % 2 ^ 32 + 2 < 2 ^ 48) {s : Sys}
    (h0 : Initial s) (hs : s.now = 0) {X : ExampleNet} (h : exampleMain junk a s = .ok X) : Joint junk X X.start := by
  obtain ⟨is, hr⟩ := (built_of hp hn ho (by unfold satCount; exact hm) h).run
  obtain ⟨s0, o, hi, _, hex, _⟩ := C62_helper_network_is_history h0 hr
  refine ⟨clockInv_exec hi (hex ⟨fun _ => false, fun _ => none, fun _ => none, ⟨false, fun _ => 0⟩, fun _ _ => 0, fun _ _ _ _ => false⟩),
    ⟨[], by simp, rfl⟩, ?_⟩
  show X.fleet.now = X.build.sys.now
  rw [example_now h, hs, example_fleet h ho]
  rfl

theorem joint_exec {junk : ℝ} {a : ExampleArgs} {s : Sys} {X : ExampleNet} (h : exampleMain junk a s = .ok X)
    (ho : ∀ o ∈ a.orbits, Installable o) {v : ℝ} {r : ℝ → Time} {E : Env} : ∀ (ops : List WorldOp) (W W' : World), Joint junk X W →
    W.exec junk X v r E ops = .ok W' → Joint junk X W'
  | [], W, W', hW, hx => by
    injection hx with hx
    subst hx
    exact hW
  | op :: ops, W, W', hW, hx => by
    have hfl := flight_of h ho hW.flown
    rw [World.exec] at hx
    obtain ⟨W1, h1, h2⟩ := Outcome.bind_eq_ok.mp hx
    refine joint_exec h ho ops W1 W' ?_ h2
    cases op with
    | net o =>
      simp only [World.step] at h1
      split at h1
      · rename_i hdue
        obtain ⟨s', hs', e⟩ := Outcome.bind_eq_ok.mp h1
        injection e with e
        rw [← e]
        exact joint_net hW (all_le hdue) hfl.inv hs'
      · injection h1 with e; rw [← e]; exact hW
    | update =>
      simp only [World.step] at h1
      split at h1
      · injection h1 with e; rw [← e]; exact hW
      · rename_i e rest hp
        split at h1
        · rename_i hq
          obtain ⟨F, hF, _, _, hJ, _⟩ := joint_update hW hfl hp (fun p hp => by simpa using List.all_eq_true.mp hq p hp)
          rw [hF, Outcome.ok_bind] at h1
          injection h1 with e; rw [← e]; exact hJ
        · injection h1 with e; rw [← e]; exact hW

/-! ### Updates up to a time -/

/-- How many nanoseconds the pending updates are away from the end of `t`. -/
def ahead (t : Time) (l : List (Time × FleetEv)) : Nat := (l.map fun e => t + 1 - e.1).sum

theorem ahead_insert (t u : Time) (e : FleetEv) : ∀ l : List (Time × FleetEv), ahead t (insertFleetEv u e l) = t + 1 - u + ahead t l
  | [] => by simp [ahead, insertFleetEv]
  | x :: l => by
    rw [insertFleetEv]
    split
    · have := ahead_insert t u e l
      simp only [ahead, List.map_cons, List.sum_cons] at this ⊢
      omega
    · simp [ahead]

theorem world_drain {junk : ℝ} {a : ExampleArgs} {s : Sys} {X : ExampleNet} (h : exampleMain junk a s = .ok X)
    (ho : ∀ o ∈ a.orbits, Installable o) {v : ℝ} {r : ℝ → Time} {E : Env} {t : Time} : ∀ (n : Nat) (W : World), ahead t W.fleet.pending = n →
    Joint junk X W → W.net.now ≤ t → (∀ p ∈ W.net.pending, t ≤ p.time) →
    ∃ k F, W.exec junk X v r E (List.replicate k .update) = .ok ⟨{ W.net with now := F.now }, F⟩ ∧ (∀ e ∈ F.pending, t < e.1) ∧
      W.net.now ≤ F.now ∧ F.now ≤ t ∧ Joint junk X ⟨{ W.net with now := F.now }, F⟩ := by
  intro n
  induction n using Nat.strongRecOn with
  | ind n ih =>
    intro W hn hW hnow hpend
    have hfl := flight_of h ho hW.flown
    have done : (∀ e ∈ W.fleet.pending, t < e.1) → ∃ k F, W.exec junk X v r E (List.replicate k .update) = .ok ⟨{ W.net with now := F.now }, F⟩ ∧
        (∀ e ∈ F.pending, t < e.1) ∧ W.net.now ≤ F.now ∧ F.now ≤ t ∧ Joint junk X ⟨{ W.net with now := F.now }, F⟩ := by
      intro hd
      have e : (⟨{ W.net with now := W.fleet.now }, W.fleet⟩ : World) = W := by rw [hW.now]
      refine ⟨0, W.fleet, ?_, hd, hW.now.ge, hW.now ▸ hnow, ?_⟩
      · rw [e]; rfl
      · rw [e]; exact hW
    cases hp : W.fleet.pending with
    | nil => exact done (by rw [hp]; simp)
    | cons e rest =>
      by_cases he : e.1 ≤ t
      · have hq : ∀ p ∈ W.net.pending, e.1 ≤ p.time := fun p hp => he.trans (hpend p hp)
        obtain ⟨F, hF, hFn, hle, hJ, i, hpe⟩ := joint_update hW hfl hp hq
        have hpos : 0 < a.prec := by
          rcases hfl.some with h' | h'
          · exact h'
          · rw [hp] at h'; cases h'
        have hlt : ahead t F.pending < n := by
          rw [hpe, ahead_insert, ← hn, hp]
          simp only [ahead, List.map_cons, List.sum_cons]
          have : 0 < a.prec.toNat := by omega
          omega
        obtain ⟨k, G, g1, g2, g3, g4, g5⟩ := ih _ hlt ⟨{ W.net with now := F.now }, F⟩ rfl hJ (by simp only [hFn]; exact he) hpend
        refine ⟨k + 1, G, ?_, g2, ?_, g4, g5⟩
        · rw [List.replicate_succ, World.exec]
          have : W.step junk X v r E .update = .ok ⟨{ W.net with now := F.now }, F⟩ := by
            simp only [World.step, hp]
            rw [if_pos (by rw [List.all_eq_true]; exact fun p hp => by simpa using hq p hp), hF]
            rfl
          rw [this]
          exact g1
        · simp only at g3
          rw [hFn] at g3
          exact hle.trans g3
      · refine done fun x hx => ?_
        rw [hp] at hx
        have hs := hfl.inv.sorted
        rw [hp] at hs
        rcases List.mem_cons.mp hx with rfl | hx
        · exact Nat.lt_of_not_le he
        · exact Nat.lt_of_lt_of_le (Nat.lt_of_not_le he) ((List.pairwise_cons.mp hs).1 x hx)

theorem world_exec_append {junk : ℝ} {X : ExampleNet} {v : ℝ} {r : ℝ → Time} {E : Env} : ∀ (l l' : List WorldOp) (W W1 : World),
    W.exec junk X v r E l = .ok W1 → W.exec junk X v r E (l ++ l') = W1.exec junk X v r E l'
  | [], l', W, W1, h => by injection h with h; rw [h]; rfl
  | op :: l, l', W, W1, h => by
    rw [World.exec] at h
    obtain ⟨W2, h1, h2⟩ := Outcome.bind_eq_ok.mp h
    rw [List.cons_append, World.exec, h1, Outcome.ok_bind]
    exact world_exec_append l l' W2 W1 h2

theorem seen_append {junk : ℝ} {X : ExampleNet} {v : ℝ} {r : ℝ → Time} {E : Env} : ∀ (l l' : List WorldOp) (W W1 : World),
    W.exec junk X v r E l = .ok W1 → seen junk X v r E W (l ++ l') = seen junk X v r E W l ++ seen junk X v r E W1 l'
  | [], l', W, W1, h => by injection h with h; rw [h]; rfl
  | op :: l, l', W, W1, h => by
    rw [World.exec] at h
    obtain ⟨W2, h1, h2⟩ := Outcome.bind_eq_ok.mp h
    rw [List.cons_append, seen, seen, h1]
    simp only
    rw [seen_append l l' W2 W1 h2, List.append_assoc]

theorem seen_updates {junk : ℝ} {X : ExampleNet} {v : ℝ} {r : ℝ → Time} {E : Env} : ∀ (k : Nat) (W : World),
    seen junk X v r E W (List.replicate k .update) = []
  | 0, W => rfl
  | k + 1, W => by
    rw [List.replicate_succ, seen]
    cases W.step junk X v r E .update with
    | fail _ => rfl
    | ok W' => exact seen_updates k W'

/-- Where the satellites are when all updates up to a time are done. -/
noncomputable def settled (a : ExampleArgs) (t : Time) : List Vec :=
  (places a.orbits).map fun x => track x.1 x.2.1 x.2.2 ((lastUpdate a.prec.toNat t : Nat) / 1000000000)

theorem settled_of {a : ExampleArgs} {X : ExampleNet} {v : ℝ} {r : ℝ → Time} {F : Fleet} (hlen : F.mobs.length = (places a.orbits).length)
    {t : Time} (h : AgreeAt t (X.sky v r F) (skyWith a X v r [])) : (F.mobs.map fun m => m.getPosition t) = settled a t := by
  apply List.ext_getElem?
  intro i
  rw [settled, List.getElem?_map, List.getElem?_map]
  by_cases hi : i < (places a.orbits).length
  · have := h.pos i
    have hi' : i < F.mobs.length := hlen ▸ hi
    have no : ¬ ∃ l, (t, l) ∈ ([] : List (Time × List Vec)) := by simp
    simp only [ExampleNet.sky, skyWith, List.getElem?_eq_getElem hi', List.getElem?_eq_getElem hi, Option.map_some, no, dif_neg,
      not_false_eq_true] at this
    rw [List.getElem?_eq_getElem hi', List.getElem?_eq_getElem hi]
    exact this
  · have e1 : F.mobs[i]? = none := List.getElem?_eq_none (hlen ▸ Nat.le_of_not_lt hi)
    have e2 : (places a.orbits)[i]? = none := List.getElem?_eq_none (Nat.le_of_not_lt hi)
    rw [e1, e2]
    rfl

theorem trafficOf_updates (k : Nat) : trafficOf (List.replicate k .update) = [] := by
  induction k with
  | zero => rfl
  | succ k ih => rw [List.replicate_succ]; exact ih

theorem trafficOf_append (l l' : List WorldOp) : trafficOf (l ++ l') = trafficOf l ++ trafficOf l' := List.filterMap_append ..

theorem run_later {E : Env} {s : Sys} (hp : s.pending ≠ []) (t : Time) : step E { s with now := t } .run = step E s .run := by
  simp only [step, run]
  cases h : s.pending with
  | nil => exact absurd h hp
  | cons q qs => rfl

theorem world_realised {junk : ℝ} {a : ExampleArgs} {s : Sys} {X : ExampleNet} (h : exampleMain junk a s = .ok X)
    (ho : ∀ o ∈ a.orbits, Installable o) (hprec : 0 ≤ a.prec) {v : ℝ} {r : ℝ → Time} {E : Env} : ∀ (ops : List Op) (W : World) (s1 : Sys),
    Joint junk X W → exec ((skyWith a X v r []).env E) W.net ops = .ok s1 →
    ∃ wops F, W.exec junk X v r E wops = .ok ⟨s1, F⟩ ∧
      (trafficOf wops).filter (fun o => !isWait o) = ops.filter (fun o => !isWait o) ∧
      ∀ x ∈ seen junk X v r E W wops, x.2 = settled a x.1
  | [], W, s1, _, hx => by
    injection hx with hx
    subst hx
    exact ⟨[], W.fleet, rfl, rfl, by intro x hx; cases hx⟩
  | op :: ops, W, s1, hW, hx => by
    rw [exec] at hx
    obtain ⟨s', h1, h2⟩ := Outcome.bind_eq_ok.mp hx
    by_cases hb : isWait op = true ∧ s' = W.net
    · obtain ⟨hb, rfl⟩ := hb
      obtain ⟨wops, F, g1, g2, g3⟩ := world_realised h ho hprec ops W s1 hW h2
      refine ⟨wops, F, g1, ?_, g3⟩
      rw [g2, notWait_filter_cons, hb]
      rfl
    · have hnow : s'.now = W.net.timeOf op := by
        rcases step_now h1 with e | e
        · exact e
        · exact absurd e hb
      have hle : W.net.now ≤ W.net.timeOf op := by rw [← hnow]; exact (clock_step hW.clock h1).2.now
      have hpend : ∀ p ∈ W.net.pending, W.net.timeOf op ≤ p.time := by
        intro p hp
        cases op with
        | run =>
          simp only [Sys.timeOf]
          cases hpe : W.net.pending with
          | nil => rw [hpe] at hp; cases hp
          | cons q qs =>
            have hs := hW.clock.sorted
            rw [hpe] at hs hp
            rcases List.mem_cons.mp hp with rfl | hp
            · exact Nat.le_refl _
            · exact (List.pairwise_cons.mp hs).1 p hp
        | wait dt =>
          simp only [step] at h1
          split at h1
          · rename_i hall
            simpa [Sys.timeOf] using List.all_eq_true.mp hall p hp
          · injection h1 with h1
            exact absurd ⟨rfl, h1.symm⟩ hb
        | _ => exact hW.clock.future p hp
      obtain ⟨k, F, g1, g2, g3, g4, g5⟩ := world_drain h ho (v := v) (r := r) (E := E) _ W rfl hW hle hpend
      have hag := skyWith_drained h ho hprec g5.flown g4 g2 v r
      have hfl := flight_of h ho g5.flown
      -- the operation, with the updates before it, does the same
      obtain ⟨op', e1, e2, e3⟩ : ∃ op', ({ W.net with now := F.now } : Sys).timeOf op' = W.net.timeOf op ∧
          step ((X.sky v r F).env E) { W.net with now := F.now } op' = .ok s' ∧
          ([op'] : List Op).filter (fun o => !isWait o) = [op].filter (fun o => !isWait o) := by
        by_cases hw : isWait op = true
        · cases op with
          | wait dt =>
            have hadd : F.now + (W.net.now + dt - F.now) = W.net.now + dt := Nat.add_sub_cancel' g4
            refine ⟨.wait (W.net.now + dt - F.now), hadd, ?_, rfl⟩
            simp only [step] at h1 ⊢
            rw [hadd]
            split at h1
            · rename_i hall
              rw [if_pos hall]
              exact h1
            · injection h1 with h1
              exact absurd ⟨rfl, h1.symm⟩ hb
          | _ => simp [isWait] at hw
        · have same : F.now = W.net.now ∨ op = .run ∧ W.net.pending ≠ [] := by
            cases op with
            | run =>
              cases hpe : W.net.pending with
              | nil =>
                simp only [Sys.timeOf, hpe] at g4
                exact Or.inl (Nat.le_antisymm g4 g3)
              | cons q qs => exact Or.inr ⟨rfl, by simp⟩
            | wait dt => simp [isWait] at hw
            | _ => exact Or.inl (Nat.le_antisymm g4 g3)
          rcases same with hF | ⟨rfl, hne⟩
          · have e : ({ W.net with now := F.now } : Sys) = W.net := by rw [hF]
            refine ⟨op, by rw [e], ?_, rfl⟩
            rw [e, step_agree fun _ => hag]
            exact h1
          · refine ⟨.run, ?_, ?_, rfl⟩
            · simp only [Sys.timeOf]
              cases hpe : W.net.pending with
              | nil => exact absurd hpe hne
              | cons q qs => rfl
            · rw [run_later hne, step_agree fun _ => hag]
              exact h1
      have hdue : ∀ e ∈ F.pending, ({ W.net with now := F.now } : Sys).timeOf op' ≤ e.1 := fun e he => e1 ▸ (g2 e he).le
      have hJ := joint_net g5 hdue hfl.inv e2
      obtain ⟨wops, G, j1, j2, j3⟩ := world_realised h ho hprec ops ⟨s', { F with now := s'.now }⟩ s1 hJ h2
      have hstep : World.step junk X v r E ⟨{ W.net with now := F.now }, F⟩ (.net op') = .ok ⟨s', { F with now := s'.now }⟩ := by
        simp only [World.step]
        rw [if_pos (by rw [List.all_eq_true]; exact fun e he => by simpa using hdue e he), e2]
        rfl
      refine ⟨List.replicate k .update ++ .net op' :: wops, G, ?_, ?_, ?_⟩
      · rw [world_exec_append _ _ _ _ g1, World.exec, hstep]
        exact j1
      · rw [trafficOf_append, trafficOf_updates, List.nil_append]
        have e4 : trafficOf (.net op' :: wops) = [op'] ++ trafficOf wops := rfl
        have e5 : op :: ops = [op] ++ ops := rfl
        rw [e4, e5, List.filter_append, List.filter_append, e3, j2]
      · rw [seen_append _ _ _ _ g1, seen_updates, List.nil_append, seen, hstep]
        intro x hx
        rcases List.mem_append.mp hx with hx | hx
        · simp only at hx
          split at hx
          · rw [List.mem_singleton] at hx
            subst hx
            rw [← hnow] at hag
            exact settled_of hfl.len hag
          · cases hx
        · exact j3 x hx

theorem trafficOf_split {op : Op} {rest : List Op} : ∀ (wops : List WorldOp), (trafficOf wops).filter (fun o => !isWait o) = op :: rest →
    ∃ l l', wops = l ++ .net op :: l' ∧ (∀ o, .net o ∈ l → isWait o = true) ∧ (trafficOf l').filter (fun o => !isWait o) = rest
  | [], h => by cases h
  | .update :: wops, h => by
    obtain ⟨l, l', e1, e2, e3⟩ := trafficOf_split wops h
    refine ⟨.update :: l, l', by rw [e1]; rfl, fun o ho => ?_, e3⟩
    rcases List.mem_cons.mp ho with ho | ho
    · cases ho
    · exact e2 o ho
  | .net o :: wops, h => by
    have e : trafficOf (.net o :: wops) = o :: trafficOf wops := rfl
    rw [e, notWait_filter_cons] at h
    by_cases hw : isWait o = true
    · rw [if_pos hw, List.nil_append] at h
      obtain ⟨l, l', e1, e2, e3⟩ := trafficOf_split wops h
      refine ⟨.net o :: l, l', by rw [e1]; rfl, fun x hx => ?_, e3⟩
      rcases List.mem_cons.mp hx with hx | hx
      · injection hx with hx
        rw [hx]; exact hw
      · exact e2 x hx
    · rw [if_neg hw, List.singleton_append] at h
      injection h with h1 h2
      exact ⟨[], wops, by rw [h1]; rfl, by simp, h2⟩

theorem world_exec_split {junk : ℝ} {X : ExampleNet} {v : ℝ} {r : ℝ → Time} {E : Env} : ∀ (l l' : List WorldOp) (W W' : World),
    W.exec junk X v r E (l ++ l') = .ok W' → ∃ W1, W.exec junk X v r E l = .ok W1 ∧ W1.exec junk X v r E l' = .ok W'
  | [], l', W, W', h => ⟨W, rfl, h⟩
  | op :: l, l', W, W', h => by
    rw [List.cons_append, World.exec] at h
    obtain ⟨W1, h1, h2⟩ := Outcome.bind_eq_ok.mp h
    obtain ⟨W2, h3, h4⟩ := world_exec_split l l' W1 W' h2
    exact ⟨W2, by rw [World.exec, h1]; exact h3, h4⟩

theorem world_pause {junk : ℝ} {X : ExampleNet} {v : ℝ} {r : ℝ → Time} {E : Env} : ∀ (l : List WorldOp) (W W' : World),
    (∀ o, .net o ∈ l → isWait o = true) → W.exec junk X v r E l = .ok W' → W'.net.pending = W.net.pending
  | [], W, W', _, h => by injection h with h; rw [h]
  | op :: l, W, W', hl, h => by
    rw [World.exec] at h
    obtain ⟨W1, h1, h2⟩ := Outcome.bind_eq_ok.mp h
    rw [world_pause l W1 W' (fun o ho => hl o (List.mem_cons_of_mem _ ho)) h2]
    cases op with
    | net o =>
      have hw := hl o List.mem_cons_self
      cases o with
      | wait dt =>
        simp only [World.step] at h1
        split at h1
        · obtain ⟨s, h3, h4⟩ := Outcome.bind_eq_ok.mp h1
          injection h4 with h4
          subst h4
          simp only [step] at h3
          split at h3 <;> (injection h3 with h3; subst h3; rfl)
        · injection h1 with h1; rw [h1]
      | _ => simp [isWait] at hw
    | update =>
      simp only [World.step] at h1
      split at h1
      · injection h1 with h1; rw [h1]
      · split at h1
        · obtain ⟨F, _, h4⟩ := Outcome.bind_eq_ok.mp h1
          injection h4 with h4
          subst h4
          rfl
        · injection h1 with h1; rw [h1]

/-! ### Pauses between events -/

/-- Events with pauses between them end where they end without. -/
theorem runs_meet {E : Env} : ∀ (ops : List Op) (n : Nat) (s s' f g : Sys), (∀ op ∈ ops, op = .run ∨ isWait op = true) → (∃ t, s' = { s with now := t }) →
    exec E s' ops = .ok f → f.pending = [] → exec E s (List.replicate n .run) = .ok g → g.pending = [] → ∃ t, f = { g with now := t }
  | [], n, s, s', f, g, _, ⟨t, ht⟩, hf, hfp, hg, _ => by
    injection hf with hf
    subst hf ht
    have hp : s.pending = [] := hfp
    have : ∀ n, exec E s (List.replicate n .run) = .ok s := by
      intro n
      induction n with
      | zero => rfl
      | succ n ih =>
        rw [List.replicate_succ, exec]
        have : step E s .run = .ok s := by simp only [step, run, hp]
        rw [this]
        exact ih
    rw [this n] at hg
    injection hg with hg
    exact ⟨t, by rw [hg]⟩
  | op :: ops, n, s, s', f, g, hops, ⟨t, ht⟩, hf, hfp, hg, hgp => by
    rw [exec] at hf
    obtain ⟨s1, h1, h2⟩ := Outcome.bind_eq_ok.mp hf
    have hrest : ∀ op ∈ ops, op = .run ∨ isWait op = true := fun o ho => hops o (List.mem_cons_of_mem _ ho)
    rcases hops op List.mem_cons_self with rfl | hw
    · cases hp : s.pending with
      | nil =>
        have e : s1 = s' := by
          subst ht
          simp only [step, run, hp] at h1
          injection h1 with h1
          rw [← h1, hp]
        subst e
        exact runs_meet ops n s s1 f g hrest ⟨t, ht⟩ h2 hfp hg hgp
      | cons q qs =>
        cases n with
        | zero =>
          injection hg with hg
          rw [hg, hgp] at hp
          cases hp
        | succ n =>
          rw [List.replicate_succ, exec] at hg
          obtain ⟨s2, g1, g2⟩ := Outcome.bind_eq_ok.mp hg
          have e : s2 = s1 := by
            rw [ht, run_later (by rw [hp]; simp)] at h1
            rw [h1] at g1
            injection g1 with g1
            exact g1.symm
          subst e
          exact runs_meet ops n s2 s2 f g hrest ⟨s2.now, rfl⟩ h2 hfp g2 hgp
    · refine runs_meet ops n s s1 f g hrest ?_ h2 hfp hg hgp
      cases op with
      | wait dt =>
        simp only [step] at h1
        subst ht
        split at h1
        · injection h1 with h1
          exact ⟨t + dt, h1.symm⟩
        · injection h1 with h1
          exact ⟨t, h1.symm⟩
      | _ => simp [isWait] at hw

end Verif
