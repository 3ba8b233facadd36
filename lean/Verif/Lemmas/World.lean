import Verif.Spec.World
import Verif.Props.Example
/-!
# Lemmas about network and satellites in one simulation (C109)
-/

namespace Verif
open Spec

/-! ### Only the positions at the time of the operation matter -/

/-- The environment with the propagation frozen at a time. -/
def Env.at (t : Time) (E : Env) : Env :=
  { E with
    loss := fun c => (E.loss c).map fun l p a b _ => l p a b t
    delay := fun c => (E.delay c).map fun g a b _ => g a b t }

theorem deliver_at {E : Env} {s : Sys} {t : Time} (hn : s.now = t) (c : ChanId) (f : Bytes) (src dst : DevId) (x : Time) :
    deliver E s c f src dst x = deliver (E.at t) s c f src dst x := by
  subst hn
  unfold deliver
  cases (s.dev src).node with
  | none => rfl
  | some a =>
    cases (s.dev dst).node with
    | none => rfl
    | some b => cases hl : E.loss c <;> cases hd : E.delay c <;> simp [Env.at, hl, hd]

theorem deliver_now {E : Env} {s s' : Sys} {c : ChanId} {f : Bytes} {src dst : DevId} {x : Time} {b : Bool}
    (h : deliver E s c f src dst x = .ok (s', b)) : s'.now = s.now := by
  unfold deliver at h
  simp only at h
  repeat' split at h
  all_goals first
    | cases h; done
    | (cases h; rfl)

theorem deliverAll_at {E : Env} {t : Time} {c : ChanId} {f : Bytes} {src : DevId} {x : Time} : ∀ (ds : List DevId) (s : Sys) (r : Bool), s.now = t →
    deliverAll E c f src x ds s r = deliverAll (E.at t) c f src x ds s r
  | [], _, _, _ => rfl
  | d :: ds, s, r, hn => by
    simp only [deliverAll]
    rw [← deliver_at hn]
    cases h : deliver E s c f src d x with
    | fail _ => rfl
    | ok y => exact deliverAll_at ds y.1 _ ((deliver_now (b := y.2) h).trans hn)

theorem deliverOthers_at {E : Env} {t : Time} {c : ChanId} {f : Bytes} {src : DevId} {slot : Nat} {x : Time} : ∀ (ds : List DevId) (i : Nat) (s : Sys),
    s.now = t → deliverOthers E c f src slot x ds i s = deliverOthers (E.at t) c f src slot x ds i s
  | [], _, _, _ => rfl
  | d :: ds, i, s, hn => by
    simp only [deliverOthers]
    split
    · exact deliverOthers_at ds (i + 1) s hn
    · rw [← deliver_at hn]
      cases h : deliver E s c f src d x with
      | fail _ => rfl
      | ok y => exact deliverOthers_at ds (i + 1) y.1 ((deliver_now (b := y.2) h).trans hn)

theorem chanTransmit_at {E : Env} {s : Sys} {t : Time} (hn : s.now = t) (c : ChanId) (f : Bytes) (slot : Nat) (dest : Addr) (x : Time) :
    chanTransmit E s c f slot dest x = chanTransmit (E.at t) s c f slot dest x := by
  unfold chanTransmit
  split
  · unfold leoTransmit
    split
    · rfl
    · simp only [deliverAll_at (E := E) _ s _ hn]
  · unfold islTransmit
    split
    · rfl
    · split
      · exact deliver_at hn _ _ _ _ _
      · split
        · rfl
        · rw [deliverOthers_at (E := E) _ _ s hn]

theorem transmitStart_at {E : Env} {s : Sys} {t : Time} (hn : s.now = t) (d : DevId) (f : Bytes) (dest : Addr) :
    transmitStart E s d f dest = transmitStart (E.at t) s d f dest := by
  unfold transmitStart
  simp only
  split
  · rfl
  · split
    · rfl
    · rw [chanTransmit_at (E := E) (t := t) (by exact hn)]
      rfl

theorem send_at {E : Env} {s : Sys} {t : Time} (hn : s.now = t) (d : DevId) (p : Bytes) (dest : Addr) (proto : UInt16) :
    send E s d p dest proto = send (E.at t) s d p dest proto := by
  have e : (E.at t).fcs = E.fcs := rfl
  unfold send
  simp only [e]
  split
  · rfl
  · split
    · rfl
    · split
      · rfl
      · split
        · split
          · split
            · rfl
            · rw [transmitStart_at (E := E) (t := t) (by exact hn)]
          · rfl
        · rfl

theorem complete_at {E : Env} {s : Sys} {t : Time} (hn : s.now = t) (d : DevId) (dest : Addr) :
    transmitComplete E s d dest = transmitComplete (E.at t) s d dest := by
  unfold transmitComplete
  simp only
  split
  · rfl
  · split
    · rfl
    · split
      · rfl
      · split
        · rfl
        · exact transmitStart_at (by exact hn) _ _ _

/-- An operation sees the environment at the time at which it takes place. -/
theorem step_at (E : Env) (s : Sys) (op : Op) : step E s op = step (E.at (s.timeOf op)) s op := by
  cases op with
  | send d p dest proto => exact send_at rfl d p dest proto
  | run =>
    simp only [step, run, Sys.timeOf]
    cases hp : s.pending with
    | nil => rfl
    | cons p ps =>
      simp only [List.head?_cons, Option.map_some, Option.getD_some]
      cases p.act with
      | txComplete d dest => exact complete_at rfl d dest
      | receive dst f src rx => rfl
  | _ => rfl

theorem step_idle {E E' : Env} {s : Sys} {op : Op} (h : mayTransmit op = false) : step E s op = step E' s op := by
  cases op <;> first | rfl | simp [mayTransmit] at h

/-- Two skies that agree at a time. -/
structure AgreeAt (t : Time) (K L : Sky) : Prop where
  pos : ∀ n, (K.pos n).map (· t) = (L.pos n).map (· t)
  budget : K.budget = L.budget
  speed : K.speed = L.speed
  ofSeconds : K.ofSeconds = L.ofSeconds

theorem env_agree {t : Time} {K L : Sky} (h : AgreeAt t K L) (E : Env) : (K.env E).at t = (L.env E).at t := by
  have hs : ∀ n, (K.pos n).isSome = (L.pos n).isSome := by
    intro n
    have := congrArg Option.isSome (h.pos n)
    simpa using this
  unfold Env.at Sky.env
  simp only [Option.map_some, Env.mk.injEq, and_true, h.budget, h.speed, h.ofSeconds]
  refine ⟨funext hs, ?_, ?_⟩
  · funext c
    congr 1
    funext p a b _
    have ha := h.pos a
    have hb := h.pos b
    cases e1 : K.pos a <;> cases e2 : L.pos a <;> cases e3 : K.pos b <;> cases e4 : L.pos b <;> simp_all
  · funext c
    congr 1
    funext a b _
    have ha := h.pos a
    have hb := h.pos b
    cases e1 : K.pos a <;> cases e2 : L.pos a <;> cases e3 : K.pos b <;> cases e4 : L.pos b <;> simp_all

theorem step_agree {K L : Sky} {E : Env} {s : Sys} {op : Op} (h : mayTransmit op = true → AgreeAt (s.timeOf op) K L) :
    step (K.env E) s op = step (L.env E) s op := by
  by_cases hm : mayTransmit op = true
  · rw [step_at (K.env E), step_at (L.env E), env_agree (h hm)]
  · exact step_idle (by simpa using hm)

theorem transmitStart_now {E : Env} {s s' : Sys} {d : DevId} {f : Bytes} {dest : Addr} (h : transmitStart E s d f dest = .ok s') :
    s'.now = s.now := by
  obtain ⟨_, c, src, rs, b, _, _, _, rfl⟩ := transmitStart_ok h
  rfl

/-- The clock after an operation. -/
theorem step_now {E : Env} {s s' : Sys} {op : Op} (h : step E s op = .ok s') :
    s'.now = s.timeOf op ∨ isWait op = true ∧ s' = s := by
  cases op with
  | send d p dest proto =>
    refine Or.inl ?_
    rcases send_ok h with ⟨_, rfl⟩ | ⟨_, _, m, _, f, _, hcase⟩
    · rfl
    · rcases hcase with ⟨_, rfl⟩ | ⟨_, _, rfl⟩ | ⟨_, _, g, rest, s3, _, hts, rfl⟩
      · rfl
      · rfl
      · have := transmitStart_now hts
        exact this
  | sendFrom => injection h with h; subst h; exact Or.inl rfl
  | attach d c => obtain ⟨g, t, _, rfl⟩ := attach_ok h; exact Or.inl rfl
  | detach c slot =>
    obtain ⟨g, t, _, h⟩ := detach_ok h
    rcases h with ⟨d, _, _, rfl⟩ | ⟨_, rfl⟩ <;> exact Or.inl rfl
  | setAddress d a =>
    cases a with
    | other => cases h
    | mac m => injection h with h; subst h; exact Or.inl rfl
  | run =>
    refine Or.inl ?_
    simp only [step, run] at h
    cases hp : s.pending with
    | nil =>
      rw [hp] at h
      injection h with h; subst h
      simp [Sys.timeOf, hp]
    | cons p ps =>
      rw [hp] at h
      obtain ⟨t, a⟩ := p
      have ht : s.timeOf .run = t := by simp [Sys.timeOf, hp]
      rw [ht]
      cases a with
      | receive d f src rx => obtain ⟨l, _, rfl⟩ := receive_ok h; rfl
      | txComplete d dest =>
        obtain ⟨_, _, f, _, hcase⟩ := transmitComplete_ok h
        rcases hcase with ⟨_, rfl⟩ | ⟨q, rest, _, hts⟩
        · rfl
        · exact transmitStart_now hts
  | wait dt =>
    simp only [step] at h
    split at h
    · injection h with h; subst h; exact Or.inl rfl
    · injection h with h; subst h; exact Or.inr ⟨rfl, rfl⟩
  | _ => injection h with h; subst h; exact Or.inl rfl

/-! ### The satellites while nobody calls their setters -/

/-- What the satellites of the program may be while it runs. -/
def Flown (junk : ℝ) (X : ExampleNet) (F : Fleet) : Prop :=
  ∃ ops : List FleetOp, (∀ op ∈ ops, op = .run ∨ ∃ dt, op = .wait dt) ∧ X.fleet.exec junk ops = .ok F

theorem Flown.calls {junk : ℝ} {X : ExampleNet} {F : Fleet} (h : Flown junk X F) :
    ∃ ops : List FleetOp, (∀ op ∈ ops, ∀ i, callOf i op = none) ∧ X.fleet.exec junk ops = .ok F := by
  obtain ⟨ops, h1, h2⟩ := h
  refine ⟨ops, fun op hop i => ?_, h2⟩
  rcases h1 op hop with rfl | ⟨dt, rfl⟩ <;> rfl

theorem Flown.snoc {junk : ℝ} {X : ExampleNet} {F F' : Fleet} (h : Flown junk X F) {op : FleetOp} (hop : op = .run ∨ ∃ dt, op = .wait dt)
    (hs : F.step junk op = .ok F') : Flown junk X F' := by
  obtain ⟨ops, h1, h2⟩ := h
  refine ⟨ops ++ [op], fun o ho => ?_, ?_⟩
  · rcases List.mem_append.mp ho with ho | ho
    · exact h1 o ho
    · rw [List.mem_singleton.mp ho]; exact hop
  · rw [fleet_exec_append, h2, Outcome.ok_bind, Fleet.exec, hs]
    rfl

/-- Satellites with precision `P` and nothing but updates to come. -/
structure Flight (P : Int) (N : Nat) (F : Fleet) : Prop where
  inv : FleetInv F
  only : ∀ e ∈ F.pending, ∃ i, e.2 = .update i
  prec : ∀ m ∈ F.mobs, m.prec = P
  going : F.stopped = false
  len : F.mobs.length = N
  some : 0 < P ∨ F.pending = []

theorem flight_update {P : Int} {N : Nat} {F : Fleet} (h : Flight P N F) {t : Time} {i : Nat} {rest : List (Time × FleetEv)}
    (hp : F.pending = (t, .update i) :: rest) :
    Flight P N ({ F with now := t, pending := rest }.update i) ∧
    ({ F with now := t, pending := rest }.update i).now = t ∧
    ({ F with now := t, pending := rest }.update i).pending = insertFleetEv (t + P.toNat) (.update i) rest := by
  have hpos : 0 < P := by
    rcases h.some with h' | h'
    · exact h'
    · rw [hp] at h'; cases h'
  have hlt : i < F.mobs.length := h.inv.idx t i (by rw [hp]; simp)
  have hpr : (F.mobs[i]).prec = P := h.prec _ (List.getElem_mem hlt)
  have e : ({ F with now := t, pending := rest }.update i) =
      { F with now := t
               mobs := F.mobs.set i { F.mobs[i] with pos := (F.mobs[i]).orbit.position t }
               log := F.log ++ [(t, i)]
               out := F.out ++ List.replicate (F.sinks i) (Mob.line { F.mobs[i] with pos := (F.mobs[i]).orbit.position t } t i)
               pending := insertFleetEv (t + P.toNat) (.update i) rest } := by
    unfold Fleet.update
    simp only [List.getElem?_eq_getElem hlt, hpr, gt_iff_lt, hpos, if_true]
  have hinv : FleetInv ({ F with now := t, pending := rest }.update i) := fleetInv_update (fleetInv_pop h.inv hp) i
  rw [e] at hinv ⊢
  refine ⟨⟨hinv, ?_, ?_, h.going, ?_, Or.inl hpos⟩, rfl, rfl⟩
  · intro x hx
    rcases mem_insertFleetEv.mp hx with rfl | hx
    · exact ⟨i, rfl⟩
    · exact h.only x (by rw [hp]; exact List.mem_cons_of_mem _ hx)
  · intro m hm
    rcases List.mem_or_eq_of_mem_set hm with hm | rfl
    · exact h.prec m hm
    · exact hpr
  · simp only [List.length_set, h.len]

theorem flight_run {P : Int} {N : Nat} {F : Fleet} (h : Flight P N F) {t : Time} {i : Nat} {rest : List (Time × FleetEv)}
    (hp : F.pending = (t, .update i) :: rest) (junk : ℝ) :
    F.step junk .run = .ok ({ F with now := t, pending := rest }.update i) := by
  simp only [Fleet.step, h.going, hp]
  rfl

theorem flight_now {P : Int} {N : Nat} {F : Fleet} (h : Flight P N F) {x : Time} (hx : ∀ e ∈ F.pending, x ≤ e.1) :
    Flight P N { F with now := x } :=
  ⟨⟨h.inv.sorted, hx, h.inv.idx, h.inv.note⟩, h.only, h.prec, h.going, h.len, h.some⟩

theorem Flown.now {junk : ℝ} {X : ExampleNet} {F : Fleet} (h : Flown junk X F) {x : Time} (h1 : F.now ≤ x) (hx : ∀ e ∈ F.pending, x ≤ e.1) :
    Flown junk X { F with now := x } := by
  refine h.snoc (op := .wait (x - F.now)) (Or.inr ⟨_, rfl⟩) ?_
  have e : F.now + (x - F.now) = x := Nat.add_sub_cancel' h1
  simp only [Fleet.step, e]
  split
  · rfl
  · rename_i t r rest hp
    have := hx (t, r) (by rw [hp]; exact List.mem_cons_self)
    rw [if_pos this]

theorem example_fleet {junk : ℝ} {a : ExampleArgs} {s : Sys} {X : ExampleNet} (h : exampleMain junk a s = .ok X)
    (ho : ∀ o ∈ a.orbits, Installable o) : X.fleet = fleetOf a.prec (places a.orbits) := by
  unfold exampleMain at h
  rw [fleet_empty a.prec, fleetOrbits_eq junk a.prec ho, Outcome.ok_bind] at h
  obtain ⟨g, _, h⟩ := Outcome.bind_eq_ok.mp h
  obtain ⟨c, _, h⟩ := Outcome.bind_eq_ok.mp h
  obtain ⟨u, _, h⟩ := Outcome.bind_eq_ok.mp h
  split at h
  · obtain ⟨w, _, h⟩ := Outcome.bind_eq_ok.mp h
    injection h with h; rw [← h, List.nil_append]
  · injection h with h; rw [← h, List.nil_append]

theorem flight_start {prec : Int} (L : List (OrbitRec × Nat × Nat)) : Flight prec L.length (fleetOf prec L) := by
  refine ⟨fleetInv_fleetOf L, ?_, ?_, rfl, by simp [fleetOf], ?_⟩
  · intro e he
    simp only [fleetOf] at he
    split at he
    · obtain ⟨j, _, rfl⟩ := List.mem_map.mp he
      exact ⟨j, rfl⟩
    · cases he
  · intro m hm
    simp only [fleetOf, List.mem_map] at hm
    obtain ⟨x, _, rfl⟩ := hm
    rfl
  · by_cases hp : 0 < prec
    · exact Or.inl hp
    · refine Or.inr ?_
      simp only [fleetOf]
      rw [if_neg hp]

theorem flight_of {junk : ℝ} {a : ExampleArgs} {s : Sys} {X : ExampleNet} (h : exampleMain junk a s = .ok X)
    (ho : ∀ o ∈ a.orbits, Installable o) {F : Fleet} (hF : Flown junk X F) : Flight a.prec (places a.orbits).length F := by
  obtain ⟨ops, h1, h2⟩ := hF
  rw [example_fleet h ho] at h2
  have h0 := flight_start (prec := a.prec) (places a.orbits)
  clear h
  generalize fleetOf a.prec (places a.orbits) = G at h2 h0
  generalize (places a.orbits).length = N at *
  induction ops generalizing G with
  | nil => injection h2 with h2; rw [← h2]; exact h0
  | cons op ops ih =>
    rw [Fleet.exec] at h2
    obtain ⟨G1, g1, g2⟩ := Outcome.bind_eq_ok.mp h2
    refine ih (fun x hx => h1 x (List.mem_cons_of_mem _ hx)) G1 g2 ?_
    rcases h1 op List.mem_cons_self with rfl | ⟨dt, rfl⟩
    · cases hp : G.pending with
      | nil =>
        simp only [Fleet.step, h0.going, hp] at g1
        injection g1 with g1; rw [← g1]; exact h0
      | cons e rest =>
        obtain ⟨t, ev⟩ := e
        obtain ⟨i, hi⟩ := h0.only (t, ev) (by rw [hp]; exact List.mem_cons_self)
        simp only at hi
        subst hi
        rw [flight_run h0 hp] at g1
        injection g1 with g1; rw [← g1]
        exact (flight_update h0 hp).1
    · simp only [Fleet.step] at g1
      split at g1
      · rename_i hp
        injection g1 with g1; rw [← g1]
        exact flight_now h0 (by rw [hp]; intro e he; cases he)
      · rename_i hp
        split at g1
        · rename_i hle
          injection g1 with g1; rw [← g1]
          exact flight_now h0 (wait_le h0.inv hp hle)
        · injection g1 with g1; rw [← g1]; exact h0

end Verif
