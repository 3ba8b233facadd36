import Verif.Lemmas.Track2
import Verif.Props.Waypoint
import Verif.Props.Order
/-!
# C110: satellites imported from waypoint files
-/

namespace Verif
open Spec WReader

/-- Time of the last record of files read one after the other. -/
def Spec.endOf (last : Int) (cs : List (List WSample)) : Int := cs.foldl Spec.endTime last

/-- Files of which every last record is later than all records before: their waypoints are taken, and the installation goes on. -/
theorem install_append (fs : Files) (junk : Nat → Nat → Int) {ps : List String} {cs : List (List WSample)}
    (h : List.Forall₂ (fun p c => fs p = some c) ps cs) (qs : List String) (r : WReader) (hr : 0 ≤ r.last) (hf : AllFresh r.last cs) :
    ∃ r1 : WReader, r1.last = endOf r.last cs ∧ 0 ≤ r1.last ∧
      satInstall fs junk r (ps ++ qs) = (do let (r2, ls) ← satInstall fs junk r1 qs; .ok (r2, threaded r.last cs ++ ls)) := by
  induction h generalizing r with
  | nil =>
    refine ⟨r, rfl, hr, ?_⟩
    simp only [List.nil_append, threaded]
    cases satInstall fs junk r qs with
    | ok x => obtain ⟨a, b⟩ := x; rfl
    | fail e => rfl
  | @cons p c ps cs hp _ ih =>
    obtain ⟨f1, f2⟩ := hf
    have e1 := fill_open fs (junk (ps ++ qs).length) p c (c.length + 1) c r.last [] (by omega) hr f1 (by simp)
    have hend : 0 ≤ endTime r.last c := by
      rcases f1 with rfl | ⟨pre, w, rfl, hw, _⟩
      · exact hr
      · simp only [endTime, List.getLast?_concat, Option.map_some, Option.getD_some]; omega
    obtain ⟨r1, g1, g2, g3⟩ := ih ⟨p, endTime r.last c, some (c, [])⟩ hend f2
    refine ⟨r1, g1, g2, ?_⟩
    simp only [List.cons_append, satInstall, setFile_eq hp, hp, Option.getD_some, e1, Outcome.ok_bind, g3, List.nil_append, threaded]
    cases satInstall fs junk r1 qs with
    | ok x => obtain ⟨a, b⟩ := x; rfl
    | fail e => rfl

theorem threaded_increasing : ∀ (cs : List (List WSample)) (last : Int), ∀ l ∈ threaded last cs, Increasing l := by
  intro cs
  induction cs with
  | nil => intro last l hl; cases hl
  | cons c cs ih =>
    intro last l hl
    rcases List.mem_cons.mp hl with rfl | hl
    · exact (maxima_chain c last).2.1
    · exact ih _ l hl

/-- **C110** (law): if every file ends with a record later than the others and than the files before it, every satellite flies along
straight lines through those records of its file that are later than the file before and than the records before them, whenever and
however often its position is asked for. -/
theorem C110_law (fs : Files) (junk : Nat → Nat → Int) {ps : List String} {cs : List (List WSample)}
    (h : List.Forall₂ (fun p c => fs p = some c) ps cs) (r : WReader) (hr : 0 ≤ r.last) (hf : AllFresh r.last cs) :
    ∃ r', satInstall fs junk r ps = .ok (r', threaded r.last cs) ∧ ∀ l ∈ threaded r.last cs, ∀ ts : List Int, ts.Pairwise (· ≤ ·) →
      (∀ t ∈ ts, 0 ≤ t) → (WMob.create l).ask ts = .ok (ts.map (place l)) := by
  obtain ⟨r', e⟩ := C55_law fs junk h r hr hf
  exact ⟨r', e, fun l hl ts h1 h2 => ask_create (threaded_increasing _ _ l hl) h1 h2⟩

/-- **C110** (files whose times follow one another): every satellite is at each record of its file at the time of the record, on the
straight line between two records, at the first record before and at the last record afterwards.
Missing: files over the same time range (`C110_stands_still`, `C110_lost`) and a record at time zero (`C110_record_at_zero`). -/
theorem C110_follows_file_partial (fs : Files) (junk : Nat → Nat → Int) {ps : List String} {cs : List (List WSample)}
    (h : List.Forall₂ (fun p c => fs p = some c) ps cs) (r : WReader) (hr : 0 ≤ r.last)
    (hinc : Increasing cs.flatten) (hpos : ∀ s ∈ cs.flatten, r.last < s.time) :
    ∃ r', satInstall fs junk r ps = .ok (r', cs) ∧ ∀ c ∈ cs, ∃ pos : Int → ℚ × ℚ × ℚ,
      (∀ ts : List Int, ts.Pairwise (· ≤ ·) → (∀ t ∈ ts, 0 ≤ t) → (WMob.create c).ask ts = .ok (ts.map pos)) ∧
      (∀ s ∈ c, pos s.time = spot s) ∧
      (∀ a b t, Next a b c → a.time ≤ t → t ≤ b.time → ∃ k : ℚ, 0 ≤ k ∧ k ≤ 1 ∧
        k * ((b.time - a.time : Int) : ℚ) = ((t - a.time : Int) : ℚ) ∧
        pos t = (a.x + (b.x - a.x) * k, a.y + (b.y - a.y) * k, a.z + (b.z - a.z) * k)) ∧
      (∀ s t, c.head? = some s → t ≤ s.time → pos t = spot s) ∧ (∀ s t, c.getLast? = some s → s.time ≤ t → pos t = spot s) := by
  obtain ⟨r', e⟩ := C55_consecutive_files_partial fs junk h r hr hinc hpos
  refine ⟨r', e, fun c hc => ⟨place c, ?_⟩⟩
  have hi : Increasing c := (List.pairwise_flatten.mp hinc).1 c hc
  refine ⟨fun ts h1 h2 => ask_create hi h1 h2, fun s hs => place_at hi hs, ?_, ?_, ?_⟩
  · intro a b t hn h1 h2
    obtain ⟨hab, hp⟩ := place_between hi hn h1 h2
    have hD : (0 : ℚ) < ((b.time - a.time : Int) : ℚ) := by exact_mod_cast (show (0 : Int) < b.time - a.time by omega)
    have h0 : (0 : ℚ) ≤ ((t - a.time : Int) : ℚ) := by exact_mod_cast (show (0 : Int) ≤ t - a.time by omega)
    have h3 : ((t - a.time : Int) : ℚ) ≤ ((b.time - a.time : Int) : ℚ) := by exact_mod_cast (show t - a.time ≤ b.time - a.time by omega)
    exact ⟨_, div_nonneg h0 hD.le, (div_le_one hD).mpr h3, div_mul_cancel₀ _ hD.ne', hp⟩
  · intro s t hs ht
    cases c with
    | nil => cases hs
    | cons a l =>
      injection hs with hs
      subst hs
      exact place_first hi ht
  · intro s t hs ht
    obtain ⟨l, rfl⟩ := List.getLast?_eq_some_iff.mp hs
    exact place_last hi ht

/-- Two files, one after the other in time: positions asked for at, between, before and after the records. -/
example : ∃ r', satInstall (fun p => if p = "a" then some [⟨10, 0, 0, 0⟩, ⟨20, 5, 10, 0⟩] else some [⟨30, 1, 0, 0⟩])
    (fun _ _ => -1) (create "" 0) ["a", "b"] = .ok (r', [[⟨10, 0, 0, 0⟩, ⟨20, 5, 10, 0⟩], [⟨30, 1, 0, 0⟩]]) ∧
    (WMob.create [⟨10, 0, 0, 0⟩, ⟨20, 5, 10, 0⟩]).ask [0, 10, 12, 12, 16, 20, 25] =
      .ok [(0, 0, 0), (0, 0, 0), (1, 2, 0), (1, 2, 0), (3, 6, 0), (5, 10, 0), (5, 10, 0)] :=
  ⟨⟨"b", 30, some ([⟨30, 1, 0, 0⟩], [])⟩, by decide +kernel, by decide +kernel⟩

/-! ## Files over the same time -/

theorem install_stale (fs : Files) (junk : Nat → Nat → Int) {p : String} {c : List WSample} (hp : fs p = some c) (hne : c ≠ [])
    (r : WReader) (hr : 0 ≤ r.last) (hold : ∀ s ∈ c, s.time ≤ r.last) (qs : List String) :
    satInstall fs junk r (p :: qs) = (do
      let (r2, ls) ← satInstall fs junk ⟨p, junk qs.length c.length, some (c, [])⟩ qs
      .ok (r2, [{ c.getLast hne with time := junk qs.length c.length }] :: ls)) := by
  have e : fillWaypoints fs (junk qs.length) (c.length + 1) ⟨p, r.last, some (c, c)⟩ [] =
      .ok (⟨p, junk qs.length c.length, some (c, [])⟩, [{ c.getLast hne with time := junk qs.length c.length }]) := by
    rcases getNext_open fs (junk qs.length c.length) p c c hr with ⟨pre, w, suf, g1, g2, g3, g4⟩ | ⟨g1, _, g2⟩ | ⟨g1, _⟩
    · have := hold w (by rw [g1]; simp); omega
    · rw [fillWaypoints, g2]
      obtain ⟨m, hm⟩ : ∃ m, c.length = m + 1 := ⟨c.length - 1, by have := List.length_pos_iff.mpr hne; omega⟩
      rw [hm]
      simp only [Outcome.ok_bind, addWaypoint, fillWaypoints, getNext_end]
    · exact absurd g1 hne
  simp only [satInstall, setFile_eq hp, hp, Option.getD_some, e, Outcome.ok_bind]

/-- **C110 is false**: a satellite whose file ends no later than the files before it — such as files over the same time range — stands
still at the last position of its file at all times, whatever is left in the uninitialised variable. -/
theorem C110_stands_still (fs : Files) (junk : Nat → Nat → Int) {ps : List String} {cs : List (List WSample)}
    (h : List.Forall₂ (fun p c => fs p = some c) ps cs) (hf : AllFresh 0 cs) {p : String} {c : List WSample} (hp : fs p = some c)
    (hne : c ≠ []) (hold : ∀ s ∈ c, s.time ≤ endOf 0 cs) :
    ∃ r' l, satInstall fs junk (create "" 0) (ps ++ [p]) = .ok (r', threaded 0 cs ++ [l]) ∧
      ∀ ts : List Int, ts.Pairwise (· ≤ ·) → (∀ t ∈ ts, 0 ≤ t) → (WMob.create l).ask ts = .ok (ts.map fun _ => spot (c.getLast hne)) := by
  obtain ⟨r1, g1, g2, g3⟩ := install_append fs junk h [p] (create "" 0) (by simp [create]) hf
  have e := install_stale fs junk hp hne r1 g2 (by rw [g1]; exact hold) []
  refine ⟨⟨p, junk 0 c.length, some (c, [])⟩, [{ c.getLast hne with time := junk 0 c.length }], ?_, ?_⟩
  · rw [g3, e]
    simp only [satInstall, Outcome.ok_bind]
    rfl
  · intro ts h1 h2
    rw [ask_create (by simp [Increasing]) h1 h2]
    rfl

/-- A reader whose last time is negative gives no waypoints to any satellite. -/
theorem install_negative (fs : Files) (junk : Nat → Nat → Int) {ps : List String} {cs : List (List WSample)}
    (h : List.Forall₂ (fun p c => fs p = some c) ps cs) (r : WReader) (hr : r.last < 0) :
    ∃ r', satInstall fs junk r ps = .ok (r', cs.map fun _ => []) := by
  induction h generalizing r with
  | nil => exact ⟨r, rfl⟩
  | @cons p c ps cs hp _ ih =>
    obtain ⟨r', e⟩ := ih ⟨p, r.last, some (c, c)⟩ hr
    refine ⟨r', ?_⟩
    simp only [satInstall, setFile_eq hp, hp, Option.getD_some, fillWaypoints, C54_negative_last_time fs _ p c c hr, Outcome.ok_bind, e,
      List.map_cons]

/-- **C110 is false**: if moreover that variable happens to hold a negative time, all satellites behind get no waypoints at all and are at
the centre of the Earth at all times, whatever their files say. -/
theorem C110_lost (fs : Files) (junk : Nat → Nat → Int) {ps qs : List String} {cs ds : List (List WSample)}
    (h : List.Forall₂ (fun p c => fs p = some c) ps cs) (hf : AllFresh 0 cs) {p : String} {c : List WSample} (hp : fs p = some c)
    (hne : c ≠ []) (hold : ∀ s ∈ c, s.time ≤ endOf 0 cs) (hq : List.Forall₂ (fun p c => fs p = some c) qs ds)
    (hj : junk qs.length c.length < 0) :
    ∃ r' l, satInstall fs junk (create "" 0) (ps ++ p :: qs) = .ok (r', threaded 0 cs ++ l :: ds.map fun _ => []) ∧
      ∀ ts : List Int, ts.Pairwise (· ≤ ·) → (∀ t ∈ ts, 0 ≤ t) → (WMob.create []).ask ts = .ok (ts.map fun _ => (0, 0, 0)) := by
  obtain ⟨r1, g1, g2, g3⟩ := install_append fs junk h (p :: qs) (create "" 0) (by simp [create]) hf
  have e := install_stale fs junk hp hne r1 g2 (by rw [g1]; exact hold) qs
  obtain ⟨r', e'⟩ := install_negative fs junk hq ⟨p, junk qs.length c.length, some (c, [])⟩ hj
  refine ⟨r', [{ c.getLast hne with time := junk qs.length c.length }], ?_, ?_⟩
  · rw [g3, e, e']
    simp only [Outcome.ok_bind]
    rfl
  · intro ts h1 h2
    rw [ask_create (by simp [Increasing]) h1 h2]
    rfl

/-- Three files over the same range: the first satellite flies, the second stands, the third is at the centre of the Earth. -/
example : ∃ r', satInstall (fun _ => some [⟨10, 0, 0, 7⟩, ⟨20, 5, 10, 7⟩]) (fun _ _ => -1) (create "" 0) ["a", "b", "c"] =
    .ok (r', [[⟨10, 0, 0, 7⟩, ⟨20, 5, 10, 7⟩], [⟨-1, 5, 10, 7⟩], []]) ∧
    (WMob.create [⟨-1, 5, 10, 7⟩]).ask [0, 15] = .ok [(5, 10, 7), (5, 10, 7)] ∧ (WMob.create []).ask [0, 15] = .ok [(0, 0, 0), (0, 0, 0)] :=
  ⟨⟨"c", -1, some ([⟨10, 0, 0, 7⟩, ⟨20, 5, 10, 7⟩], [⟨10, 0, 0, 7⟩, ⟨20, 5, 10, 7⟩])⟩, by decide +kernel, by decide +kernel, by decide +kernel⟩

/-- **C110 is false**: a record at time zero is passed over, and until the second record the satellite stands at the second. -/
theorem C110_record_at_zero (fs : Files) (junk : Nat → Nat → Int) {p : String} {a b : WSample} {c : List WSample}
    (hp : fs p = some (a :: b :: c)) (ha : a.time = 0) (hi : Increasing (a :: b :: c)) :
    ∃ r', satInstall fs junk (create "" 0) [p] = .ok (r', [b :: c]) ∧
      ∀ ts : List Int, ts.Pairwise (· ≤ ·) → (∀ t ∈ ts, 0 ≤ t ∧ t ≤ b.time) → (WMob.create (b :: c)).ask ts = .ok (ts.map fun _ => spot b) := by
  have hi' := increasing_tail hi
  have hb : ∀ s ∈ b :: c, 0 < s.time := by
    intro s hs
    have := (List.pairwise_cons.mp hi).1 s hs
    omega
  have hm : maxima 0 (a :: b :: c) = b :: c := by
    rw [maxima, if_neg (by omega), maxima_increasing hi', later, List.filter_eq_self.mpr]
    intro s hs
    simpa using hb s hs
  have hfr : EndsFresh 0 (a :: b :: c) := by
    right
    obtain ⟨q, v, hqv⟩ : ∃ q v, b :: c = q ++ [v] := by
      rcases List.eq_nil_or_concat (b :: c) with h | ⟨q, v, h⟩
      · cases h
      · exact ⟨q, v, by rw [h]; simp⟩
    refine ⟨a :: q, v, by rw [hqv]; rfl, hb v (by rw [hqv]; simp), ?_⟩
    intro s hs
    rw [hqv, ← List.cons_append] at hi
    exact (List.pairwise_append.mp hi).2.2 s hs v (by simp)
  obtain ⟨r', e⟩ := C55_law fs junk (cs := [a :: b :: c]) (List.Forall₂.cons hp List.Forall₂.nil) (create "" 0) (by simp [create]) ⟨hfr, trivial⟩
  refine ⟨r', ?_, ?_⟩
  · rw [e]
    simp only [threaded, create, hm]
  · intro ts h1 h2
    rw [ask_create hi' h1 fun t ht => (h2 t ht).1]
    congr 1
    exact List.map_congr_left fun t ht => place_first hi' (h2 t ht).2

example : ∃ r', satInstall (fun _ => some [⟨0, 0, 0, 7⟩, ⟨20, 5, 10, 7⟩]) (fun _ _ => -1) (create "" 0) ["a"] =
    .ok (r', [[⟨20, 5, 10, 7⟩]]) ∧ (WMob.create [⟨20, 5, 10, 7⟩]).ask [0, 10] = .ok [(5, 10, 7), (5, 10, 7)] :=
  ⟨⟨"a", 20, some ([⟨0, 0, 0, 7⟩, ⟨20, 5, 10, 7⟩], [])⟩, by decide +kernel, by decide +kernel⟩

/-! ## Where the straight lines lead, and the network -/

/-- **C110**: between two records at the same distance `r` from the centre of the Earth a satellite dives by no more than the height of
the arc over the chord between them, and never rises above `r`. -/
theorem C110_altitude {l : List WSample} (hi : Increasing l) {a b : WSample} (hn : Next a b l) {r : ℝ}
    (ha : (toVec (spot a)).len = r) (hb : (toVec (spot b)).len = r) {t : Time} (h1 : a.time ≤ t) (h2 : t ≤ b.time) :
    (wayTrack l t).len ≤ r ∧ r ^ 2 - (toVec (spot b) - toVec (spot a)).len ^ 2 / 4 ≤ (wayTrack l t).len ^ 2 := by
  obtain ⟨hab, hp⟩ := place_between hi hn h1 h2
  have hD : (0 : ℚ) < ((b.time - a.time : Int) : ℚ) := by exact_mod_cast (show (0 : Int) < b.time - a.time by omega)
  have h0 : (0 : ℚ) ≤ ((t - a.time : Int) : ℚ) := by exact_mod_cast (show (0 : Int) ≤ t - a.time by omega)
  have h3 : ((t - a.time : Int) : ℚ) ≤ ((b.time - a.time : Int) : ℚ) := by exact_mod_cast (show t - a.time ≤ b.time - a.time by omega)
  have k0 : (0 : ℝ) ≤ ((((t - a.time : Int) : ℚ) / ((b.time - a.time : Int) : ℚ) : ℚ) : ℝ) := by exact_mod_cast div_nonneg h0 hD.le
  have k1 : ((((t - a.time : Int) : ℚ) / ((b.time - a.time : Int) : ℚ) : ℚ) : ℝ) ≤ 1 := by exact_mod_cast (div_le_one hD).mpr h3
  have e := line_sq (a := spot a) (b := spot b) (p := place l t) hp
  generalize ((((t - a.time : Int) : ℚ) / ((b.time - a.time : Int) : ℚ) : ℚ) : ℝ) = k at e k0 k1
  rw [ha, hb] at e
  have hr : 0 ≤ r := ha ▸ len_nonneg _
  have hd := sq_nonneg (toVec (spot b) - toVec (spot a)).len
  have hk : k * (1 - k) ≤ 1 / 4 := by nlinarith [sq_nonneg (k - 1 / 2)]
  have hk0 : 0 ≤ k * (1 - k) := mul_nonneg k0 (by linarith)
  show (toVec (place l t)).len ≤ r ∧ _ ≤ (toVec (place l t)).len ^ 2
  constructor
  · refine (pow_le_pow_iff_left₀ (len_nonneg _) hr two_ne_zero).mp ?_
    nlinarith [mul_nonneg hk0 hd]
  · nlinarith [mul_le_mul_of_nonneg_right hk hd]

/-- A quarter of a circle between two records. -/
example : ∃ (l : List WSample) (a b : WSample) (t : Time), Increasing l ∧ Next a b l ∧ (toVec (spot a)).len = 7000000 ∧
    (toVec (spot b)).len = 7000000 ∧ a.time ≤ t ∧ t ≤ b.time ∧ place l t = (3500000, 3500000, 0) :=
  ⟨[⟨1000000000, 7000000, 0, 0⟩, ⟨2000000000, 0, 7000000, 0⟩], ⟨1000000000, 7000000, 0, 0⟩, ⟨2000000000, 0, 7000000, 0⟩, 1500000000,
    by simp [Increasing], ⟨[], [], rfl⟩, len_eq (by norm_num) (by simp [dot, toVec, spot]), len_eq (by norm_num) (by simp [dot, toVec, spot]),
    by simp, by simp, by decide +kernel⟩

/-- **C110**: between satellites with waypoints frames arrive in the order in which they were sent, if no two records ask for a speed
of more than `V`, and twice that is no more than the speed of the signal. -/
theorem C110_in_order {K : Sky} {E : Env} {s0 s : Sys} {ops : List Op} {a b : NodeId} {la lb : List WSample} {V : ℝ}
    (hg : Granular K.ofSeconds) (hv : 0 < K.speed) (ha : K.pos a = some (wayTrack la)) (hb : K.pos b = some (wayTrack lb)) (hV : 0 ≤ V)
    (hla : Increasing la) (hlb : Increasing lb)
    (hsa : ∀ x y, Next x y la → (toVec (spot y) - toVec (spot x)).len ≤ V * (((y.time - x.time : Int) : ℝ) / 1000000000))
    (hsb : ∀ x y, Next x y lb → (toVec (spot y) - toVec (spot x)).len ≤ V * (((y.time - x.time : Int) : ℝ) / 1000000000))
    (hc : V + V ≤ K.speed) (h0 : Initial s0)
    (h : exec (K.env E) s0 ops = .ok s) {src dst : DevId} (hns : (s0.dev src).node = some a) (hnd : (s0.dev dst).node = some b) :
    received src dst s.log ++ pendingRecv src dst s.pending = handed src dst s.log ∧
    ((∀ c, (s.chan c).link.Nodup) → (received src dst s.log).Sublist (begun src s.log)) := by
  have slow : ∀ l, Increasing l → (∀ x y, Next x y l → (toVec (spot y) - toVec (spot x)).len ≤ V * (((y.time - x.time : Int) : ℝ) / 1000000000)) →
      SlowerThan V (wayTrack l) := by
    intro l hl hs t u
    have key := slower_track hV l hl hs
    rcases le_total u t with htu | htu
    · have := key t u (by exact_mod_cast htu)
      have hx : (u : ℝ) ≤ t := by exact_mod_cast htu
      rw [abs_of_nonneg (by linarith)]
      push_cast at this
      unfold wayTrack
      linarith [show V * (((t : ℝ) - u) / 1000000000) = V * ((t : ℝ) / 1000000000 - (u : ℝ) / 1000000000) by ring]
    · have := key u t (by exact_mod_cast htu)
      have hx : (t : ℝ) ≤ u := by exact_mod_cast htu
      rw [abs_sub_comm, abs_of_nonneg (by linarith), len_sub_swap]
      push_cast at this
      unfold wayTrack
      linarith [show V * (((u : ℝ) - t) / 1000000000) = V * ((u : ℝ) / 1000000000 - (t : ℝ) / 1000000000) by ring]
  exact C103_exact_positions hg hv ha hb (slow la hla hsa) (slow lb hlb hsb) hc h0 h hns hnd

/-- Two satellites with waypoints on a channel, at 7 and 8 km per second. -/
example : ∃ (K : Sky) (la lb : List WSample) (V : ℝ) (s : Sys), Granular K.ofSeconds ∧ 0 < K.speed ∧ K.pos 1 = some (wayTrack la) ∧
    K.pos 3 = some (wayTrack lb) ∧ 0 ≤ V ∧ Increasing la ∧ Increasing lb ∧
    (∀ x y, Next x y la → (toVec (spot y) - toVec (spot x)).len ≤ V * (((y.time - x.time : Int) : ℝ) / 1000000000)) ∧
    (∀ x y, Next x y lb → (toVec (spot y) - toVec (spot x)).len ≤ V * (((y.time - x.time : Int) : ℝ) / 1000000000)) ∧
    V + V ≤ K.speed ∧ exec (K.env Demo.env) Demo.sys [.setMtu 1 1400] = .ok s ∧ (Demo.sys.dev 1).node = some 1 ∧
    (Demo.sys.dev 3).node = some 3 := by
  have pair : ∀ {x y a b : WSample}, Next x y [a, b] → x = a ∧ y = b := by
    rintro x y a b ⟨pre, suf, h⟩
    cases pre with
    | nil =>
      injection h with h1 h2
      injection h2 with h2 _
      exact ⟨h1.symm, h2.symm⟩
    | cons p pre =>
      have := congrArg List.length h
      simp at this
      omega
  refine ⟨⟨fun n => if n = 1 then some (wayTrack [⟨1000000000, 7000000, 0, 0⟩, ⟨2000000000, 7000000, 7000, 0⟩])
      else some (wayTrack [⟨1000000000, 0, 7000000, 0⟩, ⟨2000000000, 0, 7000000, 8000⟩]), fun _ => none, 299792458,
      fun x => ⌊x * 1000000000⌋₊⟩, _, _, 8000, _, granular_floor, by norm_num, rfl, rfl, by norm_num, by simp [Increasing], by simp [Increasing],
      ?_, ?_, by norm_num, rfl, rfl, rfl⟩
  · intro x y h
    obtain ⟨rfl, rfl⟩ := pair h
    rw [show (toVec (spot ⟨2000000000, 7000000, 7000, 0⟩) - toVec (spot ⟨1000000000, 7000000, 0, 0⟩)).len = 7000 from
      len_eq (by norm_num) (by simp [dot, toVec, spot, sub_x, sub_y, sub_z])]
    norm_num
  · intro x y h
    obtain ⟨rfl, rfl⟩ := pair h
    rw [show (toVec (spot ⟨2000000000, 0, 7000000, 8000⟩) - toVec (spot ⟨1000000000, 0, 7000000, 0⟩)).len = 8000 from
      len_eq (by norm_num) (by simp [dot, toVec, spot, sub_x, sub_y, sub_z])]
    norm_num

/-- Waypoints at most `r` from the centre of the Earth: the satellite never leaves that ball. -/
theorem track_ball {r : ℝ} (hr : 0 ≤ r) {l : List WSample} (hi : Increasing l) (hl : ∀ s ∈ l, (toVec (spot s)).len ≤ r) (t : Time) :
    (wayTrack l t).len ≤ r := by
  unfold wayTrack
  induction l with
  | nil =>
    refine le_trans (le_of_eq ?_) hr
    simp [toVec, place, interp, Vec.len]
  | cons a l ih =>
    cases l with
    | nil => exact hl a (by simp)
    | cons b l =>
      rcases lt_or_ge (t : Int) b.time with h | h
      · rcases le_or_gt (t : Int) a.time with h' | h'
        · rw [place_before h h']; exact hl a (by simp)
        · obtain ⟨hab, hp⟩ := place_between hi ⟨[], l, rfl⟩ h'.le h.le
          have hD : (0 : ℚ) < ((b.time - a.time : Int) : ℚ) := by exact_mod_cast (show (0 : Int) < b.time - a.time by omega)
          have h0 : (0 : ℚ) ≤ (((t : Int) - a.time : Int) : ℚ) := by exact_mod_cast (show (0 : Int) ≤ (t : Int) - a.time by omega)
          have h3 : (((t : Int) - a.time : Int) : ℚ) ≤ ((b.time - a.time : Int) : ℚ) := by
            exact_mod_cast (show (t : Int) - a.time ≤ b.time - a.time by omega)
          have k0 : (0 : ℝ) ≤ (((((t : Int) - a.time : Int) : ℚ) / ((b.time - a.time : Int) : ℚ) : ℚ) : ℝ) := by exact_mod_cast div_nonneg h0 hD.le
          have k1 : (((((t : Int) - a.time : Int) : ℚ) / ((b.time - a.time : Int) : ℚ) : ℚ) : ℝ) ≤ 1 := by exact_mod_cast (div_le_one hD).mpr h3
          have e := line_sq (a := spot a) (b := spot b) (p := place (a :: b :: l) t) hp
          generalize (((((t : Int) - a.time : Int) : ℚ) / ((b.time - a.time : Int) : ℚ) : ℚ) : ℝ) = k at e k0 k1
          have ha := hl a (by simp)
          have hb := hl b (by simp)
          refine (pow_le_pow_iff_left₀ (len_nonneg _) hr two_ne_zero).mp ?_
          have ha2 : (toVec (spot a)).len ^ 2 ≤ r ^ 2 := pow_le_pow_left₀ (len_nonneg _) ha 2
          have hb2 : (toVec (spot b)).len ^ 2 ≤ r ^ 2 := pow_le_pow_left₀ (len_nonneg _) hb 2
          have hd := sq_nonneg (toVec (spot b) - toVec (spot a)).len
          nlinarith [mul_nonneg (mul_nonneg k0 (sub_nonneg.mpr k1)) hd, mul_nonneg k0 (sub_nonneg.mpr hb2),
            mul_nonneg (sub_nonneg.mpr k1) (sub_nonneg.mpr ha2)]
      · rw [place_later h]
        exact ih (increasing_tail hi) fun s hs => hl s (by simp [hs])

/-- **C110**: a satellite whose records are inside the Earth — those of the file shipped with the library all are, and so is the place of a
satellite without waypoints — has no inter-satellite link to any node outside, at any time. -/
theorem C110_inside_earth {l : List WSample} (hi : Increasing l) {r : ℝ} (hr : 0 ≤ r) (hrE : r < islEarthRad)
    (hl : ∀ s ∈ l, (toVec (spot s)).len ≤ r) (t : Time) {b : Vec} (hb : islEarthRad ≤ b.len) :
    islLos (wayTrack l t) b = false ∧ islLos b (wayTrack l t) = false := by
  have h1 := track_ball hr hi hl t
  have hne : wayTrack l t ≠ b := by rintro rfl; linarith
  have hob : Spec.Obstructed islEarthRad (wayTrack l t) b := by
    refine ⟨0, le_rfl, zero_le_one, ?_⟩
    have e := len_sq (wayTrack l t)
    have h0 := len_nonneg (wayTrack l t)
    have : wayTrack l t + smul 0 (b - wayTrack l t) = wayTrack l t := by
      apply Vec.ext <;> simp [add_x, add_y, add_z, smul]
    rw [this, ← e]
    nlinarith
  constructor
  · rcases hl : islLos (wayTrack l t) b
    · rfl
    · exact absurd hob ((C48_line_of_sight hne (Or.inr hb)).mp hl)
  · rcases hl : islLos b (wayTrack l t)
    · rfl
    · exact absurd (obstructed_symm hob) ((C48_line_of_sight hne.symm (Or.inl hb)).mp hl)

/-- The first two records of data/test/waypoints.txt (in units of a metre, rounded). -/
example : ∀ s ∈ [(⟨1157401000, 619773, 2986282, -3059583⟩ : WSample), ⟨2314802000, 613937, 2990489, -3056646⟩],
    (toVec (spot s)).len ≤ 4400000 := by
  intro s hs
  refine (pow_le_pow_iff_left₀ (len_nonneg _) (by norm_num) two_ne_zero).mp ?_
  rw [sq, len_sq]
  simp only [List.mem_cons, List.not_mem_nil, or_false] at hs
  rcases hs with rfl | rfl <;> simp only [dot, toVec, spot] <;> norm_num

end Verif
