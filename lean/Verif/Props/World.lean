import Verif.Lemmas.World3
/-!
# Network and satellites in one simulation (C109)
-/

namespace Verif
open Spec Real

/-- **C109**: what the network does in one simulation with the satellites it does, up to pauses, over positions that are a function of
time, if no update comes between two transmissions of the same instant. -/
theorem C109_plain {junk : ℝ} {a : ExampleArgs} {p : Preset} (hp : p ∈ presets) (hn : a.constellation = p.name)
    (ho : ∀ o ∈ a.orbits, Installable o) (hprec : 0 ≤ a.prec)
    (hm : 2 * (places a.orbits).length + a.lonGws * a.latGws % 2 ^ 32 + 2 < 2 ^ 48) {s : Sys} (h0 : Initial s) (hs : s.now = 0)
    {X : ExampleNet} (h : exampleMain junk a s = .ok X) {v : ℝ} {r : ℝ → Time} {E : Env} {ops : List WorldOp} {W : World}
    (hx : X.start.exec junk X v r E ops = .ok W) (hst : SeenOnce (seen junk X v r E X.start ops)) :
    ∃ K ops', SkyOf a X K ∧ K.speed = v ∧ K.ofSeconds = r ∧ exec (K.env E) X.build.sys ops' = .ok W.net ∧
      (ops'.filter fun o => !isWait o).Sublist ((trafficOf ops).filter fun o => !isWait o) := by
  have hJ := joint_start hp hn ho hm h0 hs h
  obtain ⟨_, ops', g1, g2⟩ := world_plain h ho hst ops X.start W hJ (fun _ h => h) hx
  exact ⟨_, ops', skyWith_of h ho hprec (seen_flown h ho ops X.start hJ) v r, rfl, rfl, g1, g2⟩

/-- **C109**: no update comes between two transmissions of the same instant if positions are exact (precision 0), or if nothing is
transmitted at the instants of updates. -/
theorem C109_steady {junk : ℝ} {a : ExampleArgs} {p : Preset} (hp : p ∈ presets) (hn : a.constellation = p.name)
    (ho : ∀ o ∈ a.orbits, Installable o) (hprec : 0 ≤ a.prec)
    (hm : 2 * (places a.orbits).length + a.lonGws * a.latGws % 2 ^ 32 + 2 < 2 ^ 48) {s : Sys} (h0 : Initial s) (hs : s.now = 0)
    {X : ExampleNet} (h : exampleMain junk a s = .ok X) {v : ℝ} {r : ℝ → Time} {E : Env} {ops : List WorldOp}
    (hoff : a.prec = 0 ∨ ∀ t l, (t, l) ∈ seen junk X v r E X.start ops → ¬ a.prec.toNat ∣ t) :
    SeenOnce (seen junk X v r E X.start ops) := by
  have hJ := joint_start hp hn ho hm h0 hs h
  have hw := seen_flown h ho (v := v) (r := r) (E := E) ops X.start hJ
  have key : ∀ t l, (t, l) ∈ seen junk X v r E X.start ops →
      l = (places a.orbits).map fun x => track x.1 x.2.1 x.2.2 ((lastUpdate a.prec.toNat t : Nat) / 1000000000) := by
    intro t l hl
    obtain ⟨F, hF, rfl, rfl⟩ := hw t l hl
    have hfl := flight_of h ho hF
    apply List.ext_getElem?
    intro i
    rw [List.getElem?_map, List.getElem?_map]
    by_cases hi : i < (places a.orbits).length
    · obtain ⟨⟨o, p, k⟩, hx⟩ : ∃ x, (places a.orbits)[i]? = some x := ⟨_, List.getElem?_eq_getElem hi⟩
      obtain ⟨ops', hops, hex⟩ := hF.calls
      obtain ⟨m, u, hm, hu, hpos⟩ := C91_reported h ho hprec hops hex hx
      rw [hm, hx, Option.map_some, Option.map_some, hpos]
      have : u = lastUpdate a.prec.toNat F.now := by
        unfold Reported at hu
        unfold lastUpdate
        split at hu
        · rename_i hz
          rw [if_pos hz]; exact hu
        · rename_i hz
          rw [if_neg hz]
          rcases hoff with hoff | hoff
          · rw [hoff] at hz; exact absurd rfl hz
          · have hnd := hoff _ _ hl
            refine last_unique hu.1 hu.2.1 (Nat.lt_of_le_of_ne hu.2.2 ?_)
            intro he
            rw [he] at hnd
            exact hnd (Nat.dvd_add hu.1 (Nat.dvd_refl _))
      rw [this]
    · rw [List.getElem?_eq_none (by rw [hfl.len]; omega), List.getElem?_eq_none (by omega)]
      rfl
  intro t l l' h1 h2
  rw [key t l h1, key t l' h2]

/-- The hypotheses of both are met by the networks of the programs without options, also with exact positions. -/
example (isl : Bool) (prec : Int) : ∃ X, exampleMain 0 { defaultArgs isl with prec := prec } Demo.sys = .ok X ∧ Initial Demo.sys ∧ Demo.sys.now = 0 ∧
    (∀ o ∈ (defaultArgs isl).orbits, Installable o) ∧
    2 * (places (defaultArgs isl).orbits).length + (defaultArgs isl).lonGws * (defaultArgs isl).latGws % 2 ^ 32 + 2 < 2 ^ 48 := by
  have hm : 2 * (places (defaultArgs isl).orbits).length + (defaultArgs isl).lonGws * (defaultArgs isl).latGws % 2 ^ 32 + 2 < 2 ^ 48 := by
    rw [default_count]; simp [defaultArgs]
  obtain ⟨X, hX, _⟩ := C91_builds 0 (a := { defaultArgs isl with prec := prec })
    (p := ⟨"TelesatGateway", 105.9, 20, 189.3, 4.8, 0.36, 9857.1, 31.8⟩) (by simp [presets]) rfl
    (fun o ho => (default_installable isl o ho).1) hm Demo.sys
  exact ⟨X, hX, Demo.sys_initial, rfl, fun o ho => (default_installable isl o ho).1, hm⟩

/-- **C109**: whatever happened before, also around updates, the next operation of the network does what it does over positions as
described in `SkyOf`. -/
theorem C109_moment {junk : ℝ} {a : ExampleArgs} {p : Preset} (hp : p ∈ presets) (hn : a.constellation = p.name)
    (ho : ∀ o ∈ a.orbits, Installable o) (hprec : 0 ≤ a.prec)
    (hm : 2 * (places a.orbits).length + a.lonGws * a.latGws % 2 ^ 32 + 2 < 2 ^ 48) {s : Sys} (h0 : Initial s) (hs : s.now = 0)
    {X : ExampleNet} (h : exampleMain junk a s = .ok X) {v : ℝ} {r : ℝ → Time} {E : Env} {ops : List WorldOp} {W : World}
    (hx : X.start.exec junk X v r E ops = .ok W) (op : Op) :
    ∃ K, SkyOf a X K ∧ K.speed = v ∧ K.ofSeconds = r ∧
      ((∀ e ∈ W.fleet.pending, W.net.timeOf op ≤ e.1) → (∀ n, (K.pos n).map (· (W.net.timeOf op)) = ((X.sky v r W.fleet).pos n).map (· (W.net.timeOf op))) ∧
        W.step junk X v r E (.net op) = (step (K.env E) W.net op >>= fun s' => .ok ⟨s', { W.fleet with now := s'.now }⟩)) ∧
      ((∃ e ∈ W.fleet.pending, e.1 < W.net.timeOf op) → W.step junk X v r E (.net op) = .ok W) := by
  have hJ := joint_exec h ho ops X.start W (joint_start hp hn ho hm h0 hs h) hx
  have hfl := flight_of h ho hJ.flown
  by_cases hdue : ∀ e ∈ W.fleet.pending, W.net.timeOf op ≤ e.1
  · have hle : W.fleet.now ≤ W.net.timeOf op := by
      rw [hJ.now]
      cases op with
      | run =>
        simp only [Sys.timeOf]
        cases hpe : W.net.pending with
        | nil => exact Nat.le_refl _
        | cons q qs => exact hJ.clock.future q (by rw [hpe]; exact List.mem_cons_self)
      | wait dt => exact Nat.le_add_right _ _
      | _ => exact Nat.le_refl _
    have hF := hJ.flown.now hle hdue
    have hS : SeenOnce [(W.net.timeOf op, W.fleet.mobs.map fun m => m.getPosition (W.net.timeOf op))] := by
      intro t l l' h1 h2
      simp only [List.mem_singleton, Prod.mk.injEq] at h1 h2
      rw [h1.2, h2.2]
    have hag := skyWith_seen (a := a) (X := X) hS hfl.len List.mem_cons_self v r
    refine ⟨_, skyWith_of h ho hprec (S := [(W.net.timeOf op, W.fleet.mobs.map fun m => m.getPosition (W.net.timeOf op))]) ?_ v r, rfl, rfl,
      fun _ => ⟨fun n => (hag.pos n).symm, ?_⟩, ?_⟩
    · intro t l hl
      simp only [List.mem_singleton, Prod.mk.injEq] at hl
      obtain ⟨rfl, rfl⟩ := hl
      exact ⟨_, hF, rfl, rfl⟩
    · rw [World.step, if_pos (by rw [List.all_eq_true]; exact fun e he => by simpa using hdue e he), step_agree fun _ => hag]
    · rintro ⟨e, he, hlt⟩
      exact absurd (hdue e he) (Nat.not_le.mpr hlt)
  · refine ⟨_, skyWith_of h ho hprec (S := []) (fun t l hl => by cases hl) v r, rfl, rfl, fun hd => absurd hd hdue, fun _ => ?_⟩
    rw [World.step, if_neg]
    intro hc
    exact hdue (all_le hc)

/-- **C109**: there is a sky as described in `SkyOf` over which every history of the network happens also in one simulation with the
satellites, only with other pauses. -/
theorem C109_realised {junk : ℝ} {a : ExampleArgs} {p : Preset} (hp : p ∈ presets) (hn : a.constellation = p.name)
    (ho : ∀ o ∈ a.orbits, Installable o) (hprec : 0 ≤ a.prec)
    (hm : 2 * (places a.orbits).length + a.lonGws * a.latGws % 2 ^ 32 + 2 < 2 ^ 48) {s : Sys} (h0 : Initial s) (hs : s.now = 0)
    {X : ExampleNet} (h : exampleMain junk a s = .ok X) (v : ℝ) (r : ℝ → Time) :
    ∃ K, SkyOf a X K ∧ K.speed = v ∧ K.ofSeconds = r ∧ ∀ (E : Env) (ops : List Op) (s1 : Sys), exec (K.env E) X.build.sys ops = .ok s1 →
      ∃ wops W, X.start.exec junk X v r E wops = .ok W ∧ W.net = s1 ∧ SeenOnce (seen junk X v r E X.start wops) ∧
        (trafficOf wops).filter (fun o => !isWait o) = ops.filter (fun o => !isWait o) := by
  refine ⟨_, skyWith_of h ho hprec (S := []) (fun t l hl => by cases hl) v r, rfl, rfl, fun E ops s1 hx => ?_⟩
  obtain ⟨wops, F, g1, g2, g3⟩ := world_realised h ho hprec ops X.start s1 (joint_start hp hn ho hm h0 hs h) hx
  refine ⟨wops, _, g1, rfl, fun t l l' h1 h2 => ?_, g2⟩
  have e1 := g3 _ h1
  have e2 := g3 _ h2
  simp only at e1 e2
  rw [e1, e2]

/-- **C109** for the programs without options: whatever happened, around updates or not, the positions reported now put a satellite
within range of each of the two users. -/
theorem C109_default_users {isl : Bool} {junk : ℝ} {s : Sys} (h0 : Initial s) (hs : s.now = 0) {X : ExampleNet}
    (h : exampleMain junk (defaultArgs isl) s = .ok X) {v : ℝ} {r : ℝ → Time} {E : Env} {ops : List WorldOp} {W : World}
    (hx : X.start.exec junk X v r E ops = .ok W) {j : Nat} (hj : j = 400 ∨ j = 401) :
    ∃ m ∈ W.fleet.mobs, ∃ g, X.ground[j]? = some (some g) ∧ InSlantRange 20 g (m.getPosition W.net.now) := by
  have hp : (⟨"TelesatGateway", 105.9, 20, 189.3, 4.8, 0.36, 9857.1, 31.8⟩ : Preset) ∈ presets := by simp [presets]
  have ho := fun o ho => (default_installable isl o ho).1
  have hm : 2 * (places (defaultArgs isl).orbits).length + (defaultArgs isl).lonGws * (defaultArgs isl).latGws % 2 ^ 32 + 2 < 2 ^ 48 := by
    rw [default_count]; simp [defaultArgs]
  have hJ := joint_exec h ho ops X.start W (joint_start hp rfl ho hm h0 hs h) hx
  have hfl := flight_of h ho hJ.flown
  obtain ⟨K, hK, _, _, hk, _⟩ := C109_moment hp rfl ho (by simp [defaultArgs]) hm h0 hs h hx (.wait 0)
  obtain ⟨hpos, _⟩ := hk fun e he => by
    show W.net.now + 0 ≤ e.1
    rw [← hJ.now]
    exact hfl.inv.future e he
  have ht : W.net.timeOf (.wait 0) = W.net.now := rfl
  rw [ht] at hpos
  obtain ⟨i, f, g, a1, a2, a3, a4⟩ := C107_default_users h hK (user := 632 + j) (by omega) W.net.now
  have hlen : W.fleet.mobs.length = 632 := by rw [hfl.len, default_count]
  have hi : i < W.fleet.mobs.length := hlen ▸ a1
  have e1 := hpos i
  rw [a2] at e1
  simp only [ExampleNet.sky, List.getElem?_eq_getElem hi, Option.map_some, Option.some.injEq] at e1
  have e2 := hpos (632 + j)
  have e3 : W.fleet.mobs[632 + j]? = none := List.getElem?_eq_none (hlen ▸ Nat.le_add_right _ _)
  rw [a3] at e2
  simp only [ExampleNet.sky, e3, hlen, Nat.add_sub_cancel_left] at e2
  refine ⟨_, List.getElem_mem hi, g W.net.now, ?_, ?_⟩
  · cases hg : X.ground[j]? with
    | none => rw [hg] at e2; simp at e2
    | some o =>
      rw [hg] at e2
      cases o with
      | none => simp at e2
      | some w => simp at e2; rw [e2]
  · rw [← e1]
    exact a4

/-- **C109** for the programs without options: a broadcast packet that a user sends while nothing is in flight reaches some satellite,
by the time everything has arrived, whichever updates take place meanwhile. -/
theorem C109_default_packet {isl : Bool} {junk : ℝ} {s : Sys} (h0 : Initial s) (hs : s.now = 0) {X : ExampleNet}
    (h : exampleMain junk (defaultArgs isl) s = .ok X) {v : ℝ} {r : ℝ → Time} {E : Env} (hE : ErrorFree E)
    {before after : List WorldOp} (ht : ∀ op, .net op ∈ before → PlainTraffic op) (ha : ∀ op, .net op ∈ after → op = .run ∨ isWait op = true)
    {user : Nat} (hu : user = 632 + 400 ∨ user = 632 + 401) {q : Bytes} (hlen : q.length ≤ 1492) {proto : UInt16}
    (hst : SeenOnce (seen junk X v r E X.start (before ++ .net (.send user q (.mac Mac48.broadcast) proto) :: after)))
    {W W' : World} (hx : X.start.exec junk X v r E before = .ok W) (hq : W.net.pending = [])
    (hx' : W.exec junk X v r E (.net (.send user q (.mac Mac48.broadcast) proto) :: after) = .ok W') (hq' : W'.net.pending = []) :
    ∃ i < 632, upcallLog i W'.net.log = upcallLog i W.net.log ++ [(q, proto, Mac48.ofNat (user + 1))] := by
  have hp : (⟨"TelesatGateway", 105.9, 20, 189.3, 4.8, 0.36, 9857.1, 31.8⟩ : Preset) ∈ presets := by simp [presets]
  have ho := fun o ho => (default_installable isl o ho).1
  have hm : 2 * (places (defaultArgs isl).orbits).length + (defaultArgs isl).lonGws * (defaultArgs isl).latGws % 2 ^ 32 + 2 < 2 ^ 48 := by
    rw [default_count]; simp [defaultArgs]
  have hJ0 := joint_start hp rfl ho hm h0 hs h
  have hK := skyWith_of h ho (by simp [defaultArgs])
    (seen_flown h ho (v := v) (r := r) (E := E) (before ++ .net (.send user q (.mac Mac48.broadcast) proto) :: after) X.start hJ0) v r
  rw [seen_append _ _ _ _ hx] at hst hK
  obtain ⟨hJ, ops1, g1, g2⟩ := world_plain h ho hst before X.start W hJ0 (fun x hx => List.mem_append_left _ hx) hx
  have hfl := flight_of h ho hJ.flown
  -- the packet
  have hdue : ∀ e ∈ W.fleet.pending, W.net.timeOf (.send user q (.mac Mac48.broadcast) proto) ≤ e.1 := fun e he => by
    show W.net.now ≤ e.1
    rw [← hJ.now]
    exact hfl.inv.future e he
  rw [World.exec] at hx'
  obtain ⟨W1, k1, k2⟩ := Outcome.bind_eq_ok.mp hx'
  have k0 := k1
  simp only [World.step] at k1
  rw [if_pos (by rw [List.all_eq_true]; exact fun e he => by simpa using hdue e he)] at k1
  obtain ⟨s1, hs1, e⟩ := Outcome.bind_eq_ok.mp k1
  injection e with e
  have hJ1 : Joint junk X W1 := by rw [← e]; exact joint_net hJ hdue hfl.inv hs1
  have hsub : ∀ x ∈ seen junk X v r E W1 after, x ∈ seen junk X v r E X.start before ++
      seen junk X v r E W (.net (.send user q (.mac Mac48.broadcast) proto) :: after) := by
    intro x hx
    refine List.mem_append_right _ ?_
    rw [seen, k0]
    exact List.mem_append_right _ hx
  obtain ⟨_, ops2, g3, g4⟩ := world_plain h ho hst after W1 W' hJ1 hsub k2
  have hag : step ((X.sky v r W.fleet).env E) W.net (.send user q (.mac Mac48.broadcast) proto) =
      step ((skyWith (defaultArgs isl) X v r (seen junk X v r E X.start before ++
        seen junk X v r E W (.net (.send user q (.mac Mac48.broadcast) proto) :: after))).env E) W.net
        (.send user q (.mac Mac48.broadcast) proto) := by
    refine step_agree fun _ => skyWith_seen hst hfl.len (List.mem_append_right _ ?_) v r
    have hnow : s1.now = W.net.timeOf (.send user q (.mac Mac48.broadcast) proto) := by
      rcases step_now hs1 with e | ⟨e, _⟩
      · exact e
      · simp [isWait] at e
    rw [seen, k0]
    refine List.mem_append_left _ ?_
    rw [← e]
    simp only [mayTransmit, if_true, List.mem_singleton, hnow]
  obtain ⟨n, s2, r1, r2, i, hi, r3⟩ := C107_default_packet h0 h hK hE (ops := ops1) (s1 := W.net) (by
      intro op hop
      by_cases hw : isWait op = true
      · cases op <;> simp [isWait, PlainTraffic] at hw ⊢
      · have := g2.subset (List.mem_filter.mpr ⟨hop, by simpa using hw⟩)
        obtain ⟨w, hw1, hw2⟩ := List.mem_filterMap.mp (List.mem_filter.mp this).1
        cases w with
        | net o =>
          injection hw2 with hw2
          subst hw2
          exact ht o hw1
        | update => cases hw2) g1 hq hu hlen (proto := proto)
  rw [exec, ← hag, hs1, Outcome.ok_bind] at r1
  have hW1 : W1.net = s1 := by rw [← e]
  rw [hW1] at g3
  obtain ⟨t, hft⟩ := runs_meet ops2 n s1 s1 W'.net s2 (by
      intro op hop
      by_cases hw : isWait op = true
      · exact Or.inr hw
      · have := g4.subset (List.mem_filter.mpr ⟨hop, by simpa using hw⟩)
        obtain ⟨w, hw1, hw2⟩ := List.mem_filterMap.mp (List.mem_filter.mp this).1
        cases w with
        | net o =>
          injection hw2 with hw2
          subst hw2
          exact ha o hw1
        | update => cases hw2) ⟨s1.now, rfl⟩ g3 hq' r1 r2
  refine ⟨i, hi, ?_⟩
  rw [hft]
  exact r3

/-- All hypotheses are met, however long one waits: the network exists, the packet is sent, and what is under way arrives; the history is
steady. -/
example (dt : Time) : ∃ (X : ExampleNet) (before after : List WorldOp) (W W' : World), exampleMain 0 (defaultArgs true) Demo.sys = .ok X ∧
    (∀ op, .net op ∈ before → PlainTraffic op) ∧ (∀ op, .net op ∈ after → op = .run ∨ isWait op = true) ∧
    SeenOnce (seen 0 X 299792458 (fun x => ⌊x * 1000000000⌋₊) Demo.env X.start
      (before ++ .net (.send (632 + 401) [1, 2, 3] (.mac Mac48.broadcast) 0x800) :: after)) ∧
    X.start.exec 0 X 299792458 (fun x => ⌊x * 1000000000⌋₊) Demo.env before = .ok W ∧ W.net.pending = [] ∧
    W.exec 0 X 299792458 (fun x => ⌊x * 1000000000⌋₊) Demo.env (.net (.send (632 + 401) [1, 2, 3] (.mac Mac48.broadcast) 0x800) :: after) = .ok W' ∧
    W'.net.pending = [] ∧ dt ≤ W'.net.now ∧ W'.fleet.now = W'.net.now := by
  have hp : (⟨"TelesatGateway", 105.9, 20, 189.3, 4.8, 0.36, 9857.1, 31.8⟩ : Preset) ∈ presets := by simp [presets]
  have hi := fun o ho => (default_installable true o ho).1
  have hm : 2 * (places (defaultArgs true).orbits).length + (defaultArgs true).lonGws * (defaultArgs true).latGws % 2 ^ 32 + 2 < 2 ^ 48 := by
    rw [default_count]; simp [defaultArgs]
  obtain ⟨X, hX, _⟩ := C91_builds 0 hp rfl hi hm Demo.sys
  obtain ⟨K, hK, _, _, hreal⟩ := C109_realised hp rfl hi (by simp [defaultArgs]) hm Demo.sys_initial rfl hX 299792458 (fun x => ⌊x * 1000000000⌋₊)
  obtain ⟨is, hr⟩ := (built_of hp rfl hi (by unfold satCount; exact hm) hX).run
  obtain ⟨s0, o, h0, hat, hex, _⟩ := C62_helper_network_is_history Demo.sys_initial hr
  obtain ⟨hpe, _⟩ := attached_only h0 (fun op hop => by
    obtain ⟨d, c, e, _⟩ := hat op hop
    exact ⟨d, c, e⟩) (hex (K.env Demo.env))
  have hw : exec (K.env Demo.env) X.build.sys [.wait dt] = .ok { X.build.sys with now := X.build.sys.now + dt } := by
    simp only [exec, step, hpe]
    rfl
  obtain ⟨m, s2, r1, r2, _⟩ := C107_default_packet Demo.sys_initial hX hK (E := Demo.env) (fun _ _ _ _ => rfl)
    (ops := [.wait dt]) (by simp [PlainTraffic]) hw hpe (Or.inr rfl) (q := [1, 2, 3]) (by decide) (proto := 0x800)
  have hall : exec (K.env Demo.env) X.build.sys
      (.wait dt :: .send (632 + 401) [1, 2, 3] (.mac Mac48.broadcast) 0x800 :: List.replicate m .run) = .ok s2 := by
    rw [← List.singleton_append, exec_append, hw]
    exact r1
  obtain ⟨wops, W', g1, g2, g3, g4⟩ := hreal Demo.env _ s2 hall
  have g4' : (trafficOf wops).filter (fun o => !isWait o) =
      .send (632 + 401) [1, 2, 3] (.mac Mac48.broadcast) 0x800 :: List.replicate m .run := by
    rw [g4]
    simp [isWait, List.filter_cons]
  obtain ⟨l, l', e1, e2, e3⟩ := trafficOf_split wops g4'
  subst e1
  obtain ⟨W, w1, w2⟩ := world_exec_split l _ _ _ g1
  have hJ := joint_exec hX hi _ X.start W' (joint_start hp rfl hi hm Demo.sys_initial rfl hX) g1
  refine ⟨X, l, l', W, W', hX, ?_, ?_, g3, w1, ?_, w2, by rw [g2]; exact r2, ?_, hJ.now⟩
  · intro op hop
    have := e2 op hop
    cases op <;> simp [isWait, PlainTraffic] at this ⊢
  · intro op hop
    by_cases hw : isWait op = true
    · exact Or.inr hw
    · have : op ∈ (trafficOf l').filter (fun o => !isWait o) :=
        List.mem_filter.mpr ⟨List.mem_filterMap.mpr ⟨_, hop, rfl⟩, by simpa using hw⟩
      rw [e3] at this
      exact Or.inl (List.eq_of_mem_replicate this)
  · rw [world_pause l _ _ e2 w1]
    exact hpe
  · have hc := (clock_step (joint_start hp rfl hi hm Demo.sys_initial rfl hX).clock
      (E := K.env Demo.env) (op := .wait dt) (s' := { X.build.sys with now := X.build.sys.now + dt }) (by simp only [step, ExampleNet.start, hpe]; rfl)).1
    have := (timeStep_exec hc r1).1
    rw [g2]
    exact (Nat.le_add_left _ _).trans this

/-- What steadiness excludes does happen: if at an instant of updates something runs before the first update and something after it, the
two see the first satellite at two places. -/
theorem C109_not_always_steady : ∃ (X : ExampleNet) (ops : List WorldOp) (W : World), exampleMain 0 (defaultArgs true) Demo.sys = .ok X ∧
    X.start.exec 0 X 299792458 (fun x => ⌊x * 1000000000⌋₊) Demo.env ops = .ok W ∧
    ¬ SeenOnce (seen 0 X 299792458 (fun x => ⌊x * 1000000000⌋₊) Demo.env X.start ops) := by
  have hp : (⟨"TelesatGateway", 105.9, 20, 189.3, 4.8, 0.36, 9857.1, 31.8⟩ : Preset) ∈ presets := by simp [presets]
  have hi := fun o ho => (default_installable true o ho).1
  have hm : 2 * (places (defaultArgs true).orbits).length + (defaultArgs true).lonGws * (defaultArgs true).latGws % 2 ^ 32 + 2 < 2 ^ 48 := by
    rw [default_count]; simp [defaultArgs]
  obtain ⟨X, hX, _⟩ := C91_builds 0 hp rfl hi hm Demo.sys
  obtain ⟨is, hr⟩ := (built_of hp rfl hi (by unfold satCount; exact hm) hX).run
  obtain ⟨s0, o, h0, hat, hex, _⟩ := C62_helper_network_is_history Demo.sys_initial hr
  obtain ⟨hpe, _⟩ := attached_only h0 (fun op hop => by
    obtain ⟨d, c, e, _⟩ := hat op hop
    exact ⟨d, c, e⟩) (hex Demo.env)
  have hnow : X.build.sys.now = 0 := example_now hX
  have hJ := joint_start hp rfl hi hm Demo.sys_initial rfl hX
  have hF := example_fleet hX hi
  have hpend : ∀ e ∈ X.fleet.pending, e.1 = 1000000000 := by
    rw [hF]
    intro e he
    simp only [fleetOf, defaultArgs] at he
    obtain ⟨j, _, rfl⟩ := List.mem_map.mp he
    rfl
  have hhead : ∃ rest, X.fleet.pending = (1000000000, .update 0) :: rest := by
    rw [hF]
    have hn : ∀ n, n = 632 → ∃ rest, ((List.range n).map fun i => ((1000000000 : Time), FleetEv.update i)) = (1000000000, .update 0) :: rest := by
      intro n hn
      obtain ⟨k, rfl⟩ : ∃ k, n = k + 1 := ⟨n - 1, by omega⟩
      rw [List.range_succ_eq_map]
      exact ⟨_, rfl⟩
    obtain ⟨rest, h⟩ := hn _ (default_count true)
    refine ⟨rest, ?_⟩
    rw [← h]
    have hpos : (defaultArgs true).prec > 0 := by simp [defaultArgs]
    simp only [fleetOf, hpos, if_true]
    rfl
  obtain ⟨rest, hhead⟩ := hhead
  have hmob : X.fleet.mobs[0]? = some ⟨orbitOf (⟨1200, 20, 32, 16⟩, 0, 0), (orbitOf (⟨1200, 20, 32, 16⟩, 0, 0)).position 0, 1000000000⟩ := by
    rw [hF]
    rfl
  -- one second passes
  let W1 : World := ⟨{ X.build.sys with now := 1000000000 }, { X.fleet with now := 1000000000 }⟩
  have s1 : X.start.step 0 X 299792458 (fun x => ⌊x * 1000000000⌋₊) Demo.env (.net (.wait 1000000000)) = .ok W1 := by
    have e : X.start.net.timeOf (.wait 1000000000) = 1000000000 := by
      show X.build.sys.now + 1000000000 = _
      rw [hnow, Nat.zero_add]
    simp only [World.step, e]
    rw [if_pos]
    · have : step ((X.sky 299792458 (fun x => ⌊x * 1000000000⌋₊) X.start.fleet).env Demo.env) X.start.net (.wait 1000000000) = .ok W1.net := by
        show step _ X.build.sys (.wait 1000000000) = _
        simp only [step, hpe, hnow, List.all_nil, if_true]
        show Outcome.ok _ = Outcome.ok _
        simp only [W1, Nat.zero_add, hpe]
      rw [this]
      rfl
    · rw [List.all_eq_true]
      intro x hx
      simp [hpend x hx]
  -- nothing is there to run
  have idle : ∀ W : World, W.net.pending = [] → (∀ e ∈ W.fleet.pending, W.net.now ≤ e.1) → W.fleet.now = W.net.now →
      W.step 0 X 299792458 (fun x => ⌊x * 1000000000⌋₊) Demo.env (.net .run) = .ok W := by
    intro W h1 h2 h3
    have e : W.net.timeOf .run = W.net.now := by simp only [Sys.timeOf, h1]; rfl
    simp only [World.step, e]
    rw [if_pos]
    · simp only [step, run, h1, Outcome.ok_bind]
      rw [← h3]
    · rw [List.all_eq_true]
      intro x hx
      simpa using h2 x hx
  have s2 := idle W1 hpe (fun e he => (hpend e he).ge) rfl
  have hfl := flight_of hX hi (hJ.flown.now (x := 1000000000) (by
    show X.fleet.now ≤ _
    rw [hF]; exact Nat.zero_le _) (fun e he => (hpend e he).ge))
  have hr3 := flight_run hfl hhead 0
  obtain ⟨hfl3, hn3, hp3⟩ := flight_update hfl hhead
  let F3 : Fleet := ({ X.fleet with now := 1000000000, pending := rest } : Fleet).update 0
  let W3 : World := ⟨{ X.build.sys with now := F3.now }, F3⟩
  have s3 : W1.step 0 X 299792458 (fun x => ⌊x * 1000000000⌋₊) Demo.env .update = .ok W3 := by
    have e : W1.fleet.pending = (1000000000, .update 0) :: rest := hhead
    simp only [World.step, e]
    rw [if_pos]
    · have : W1.fleet.step 0 .run = .ok F3 := hr3
      rw [this]
      rfl
    · have : W1.net.pending = [] := hpe
      rw [this]
      rfl
  have s4 := idle W3 hpe (fun e he => hfl3.inv.future e he) rfl
  refine ⟨X, [.net (.wait 1000000000), .net .run, .update, .net .run], W3, hX, ?_, ?_⟩
  · simp only [World.exec, s1, s2, s3, s4, Outcome.ok_bind]
  · have hseen : seen 0 X 299792458 (fun x => ⌊x * 1000000000⌋₊) Demo.env X.start [.net (.wait 1000000000), .net .run, .update, .net .run] =
        [(1000000000, X.fleet.mobs.map fun m => m.getPosition 1000000000), (F3.now, F3.mobs.map fun m => m.getPosition F3.now)] := by
      simp only [seen, s1, s2, s3, s4, mayTransmit, if_true, List.nil_append, List.append_nil, List.singleton_append, W1, W3]
      rfl
    rw [hseen]
    have hn3' : F3.now = 1000000000 := hn3
    rw [hn3']
    intro hst
    have he := hst 1000000000 _ _ List.mem_cons_self (List.mem_cons_of_mem _ List.mem_cons_self)
    have h0 := congrArg (fun l => l[0]?) he
    have hmob3 : F3.mobs[0]? = some ⟨orbitOf (⟨1200, 20, 32, 16⟩, 0, 0), (orbitOf (⟨1200, 20, 32, 16⟩, 0, 0)).position 1000000000, 1000000000⟩ := by
      have hlt : 0 < X.fleet.mobs.length := by
        obtain ⟨h, _⟩ := List.getElem?_eq_some_iff.mp hmob
        exact h
      simp only [F3, Fleet.update, hmob]
      simp [hlt]
    simp only [List.getElem?_map, hmob, hmob3, Option.map_some, Mob.getPosition] at h0
    have h1 := congrArg Vec.z (Option.some.inj h0)
    simp only [show ¬ ((1000000000 : Int) = 0) by decide, if_false] at h1
    rw [track_eq (by norm_num), track_eq (by norm_num)] at h1
    simp only [track] at h1
    have hpi := Real.pi_gt_d2
    have hs : 0 < orbitSpeed ⟨1200, 20, 32, 16⟩ ∧ orbitSpeed ⟨1200, 20, 32, 16⟩ ≤ 8000 := by
      unfold orbitSpeed
      rw [radius]
      refine ⟨Real.sqrt_pos.mpr (by norm_num), ?_⟩
      rw [Real.sqrt_le_left (by norm_num)]
      norm_num
    have hR : 0 < radius ⟨1200, 20, 32, 16⟩ := by rw [radius]; norm_num
    have hsin : 0 < sin (20 * (Real.pi / 180)) := sin_pos_of_pos_of_lt_pi (by linarith) (by linarith)
    have hc : cos (orbitSpeed ⟨1200, 20, 32, 16⟩ / 6371009) < 1 := by
      have h0 : 0 < orbitSpeed ⟨1200, 20, 32, 16⟩ / 6371009 := by have := hs.1; positivity
      have h1 : orbitSpeed ⟨1200, 20, 32, 16⟩ / 6371009 ≤ Real.pi := by
        rw [div_le_iff₀ (by norm_num)]
        nlinarith [hs.2]
      have := Real.cos_lt_cos_of_nonneg_of_le_pi le_rfl h1 h0
      rwa [Real.cos_zero] at this
    have e1 : 2 * Real.pi * ((0 : Nat) : ℝ) / ((16 : Nat) : ℝ) + (if (20 : ℝ) ≤ 90 then 1 else -1) *
        (orbitSpeed ⟨1200, 20, 32, 16⟩ * (((0 : Nat) : ℝ) / 1000000000) / 6371009) = 0 := by simp
    have e2 : 2 * Real.pi * ((0 : Nat) : ℝ) / ((16 : Nat) : ℝ) + (if (20 : ℝ) ≤ 90 then 1 else -1) *
        (orbitSpeed ⟨1200, 20, 32, 16⟩ * (((1000000000 : Nat) : ℝ) / 1000000000) / 6371009) = orbitSpeed ⟨1200, 20, 32, 16⟩ / 6371009 := by
      rw [if_pos (by norm_num)]
      push_cast
      ring
    rw [e1, e2, Real.cos_zero] at h1
    have h2 := mul_left_cancel₀ hR.ne' h1
    have h3 := mul_right_cancel₀ hsin.ne' h2
    linarith

end Verif
