import Verif.Lemmas.Waypoint
/-!
# Waypoint files: C54-C56
-/

namespace Verif
open Spec WReader

/-! ## C54 -/

/-- C54 (any file): the samples returned are those later than the last time and than all samples before them, in
strictly increasing time, possibly followed by one more, left over from the end of the file. -/
theorem C54_order (fs : Files) (junk : Nat → Int) (path : String) (c rest : List WSample) {last : Int} (hl : 0 ≤ last)
    {n : Nat} (hn : rest.length < n) :
    ∃ l extra r', drain fs junk n ⟨path, last, some (c, rest)⟩ = .ok (l ++ extra, r') ∧
      l = maxima last rest ∧ (∀ s ∈ l, last < s.time) ∧ l.Pairwise (fun a b => a.time < b.time) ∧ l.Sublist rest ∧
      extra.length ≤ 1 ∧ (extra = [] ↔ EndsFresh last rest) ∧
      (∀ j, getNext fs j r' = .ok (r', none)) := by
  obtain ⟨h1, h2⟩ := drain_open fs junk path c n rest last hn hl
  obtain ⟨m1, m2, m3⟩ := maxima_chain rest last
  by_cases hf : EndsFresh last rest
  · refine ⟨_, [], _, by rw [h1 hf, List.append_nil], rfl, m1, m2, m3, by simp, by simp [hf], ?_⟩
    intro j
    exact getNext_end fs j _ _ _
  · obtain ⟨j, w, _, hd⟩ := h2 hf
    refine ⟨_, _, _, hd, rfl, m1, m2, m3, by simp, by simp [hf], ?_⟩
    intro j
    exact getNext_end fs j _ _ _

/-- C54 (strictly increasing file): if the file is at its end or its last sample is later than the last time, the
reader returns exactly the later samples, in file order, and then reports the end of data.
Missing: a file whose samples are all too old, see `C54_stale_file`. -/
theorem C54_increasing_partial (fs : Files) (junk : Nat → Int) (path : String) (c : List WSample) {rest : List WSample}
    {last : Int} (hl : 0 ≤ last) {n : Nat} (hn : rest.length < n) (hi : Increasing rest)
    (hlast : rest = [] ∨ ∃ s ∈ rest, last < s.time) :
    ∃ r', drain fs junk n ⟨path, last, some (c, rest)⟩ = .ok (later last rest, r') ∧
      r'.last = endTime last rest ∧ ∀ j, getNext fs j r' = .ok (r', none) := by
  have hf : EndsFresh last rest := by
    rcases List.eq_nil_or_concat rest with rfl | ⟨q, v, rfl⟩
    · exact Or.inl rfl
    · right
      rw [List.concat_eq_append] at hi hlast ⊢
      obtain ⟨_, _, h3⟩ := List.pairwise_append.mp hi
      refine ⟨q, v, rfl, ?_, fun p hp => h3 p hp v (by simp)⟩
      rcases hlast with h | ⟨s, hs, hls⟩
      · simp at h
      · rcases List.mem_append.mp hs with hs | hs
        · have := h3 s hs v (by simp); omega
        · rw [List.mem_singleton] at hs; rw [← hs]; exact hls
  refine ⟨_, by rw [(drain_open fs junk path c n rest last hn hl).1 hf, maxima_increasing hi], rfl, ?_⟩
  intro j
  exact getNext_end fs j _ _ _

/-- C54, from the creation of a reader for an existing file: the first call opens the file and the samples are those of the whole file
(a reader at the beginning of the file behaves the same). -/
theorem C54_from_creation (fs : Files) (junk : Nat → Int) {path : String} {c : List WSample} (h : fs path = some c) {last : Int}
    (hl : 0 ≤ last) {n : Nat} (hn : c.length < n) :
    (∃ l extra r', drain fs junk n (create path last) = .ok (l ++ extra, r') ∧ l = maxima last c ∧ extra.length ≤ 1 ∧
      (extra = [] ↔ EndsFresh last c) ∧ ∀ j, getNext fs j r' = .ok (r', none)) ∧
    (Increasing c → (c = [] ∨ ∃ s ∈ c, last < s.time) →
      ∃ r', drain fs junk n (create path last) = .ok (later last c, r') ∧ ∀ j, getNext fs j r' = .ok (r', none)) := by
  have hopen : drain fs junk n (create path last) = drain fs junk n ⟨path, last, some (c, c)⟩ := by
    cases n with
    | zero => omega
    | succ n => simp [drain, getNext, create, openFile, h]
  rw [hopen]
  constructor
  · obtain ⟨l, extra, r', h1, h2, _, _, _, h3, h4, h5⟩ := C54_order fs junk path c c hl hn
    exact ⟨l, extra, r', h1, h2, h3, h4, h5⟩
  · intro hi hlast
    obtain ⟨r', h1, _, h2⟩ := C54_increasing_partial fs junk path c hl hn hi hlast
    exact ⟨r', h1, h2⟩

/-- A file of three samples of which two are new. -/
example : drain (fun _ => some [⟨1, 0, 0, 0⟩, ⟨3, 0, 0, 0⟩, ⟨4, 1, 0, 0⟩]) (fun _ => 7) 5 (create "f" 2) =
    .ok ([⟨3, 0, 0, 0⟩, ⟨4, 1, 0, 0⟩], ⟨"f", 4, some ([⟨1, 0, 0, 0⟩, ⟨3, 0, 0, 0⟩, ⟨4, 1, 0, 0⟩], [])⟩) := by decide +kernel

/-- C54 is false as stated: if no sample of a non-empty file is later than the last time, one sample is returned all
the same: the position of the last record with an indeterminate time. -/
theorem C54_stale_file (fs : Files) (junk : Nat → Int) (path : String) (c : List WSample) {rest : List WSample}
    {last : Int} (hl : 0 ≤ last) (hne : rest ≠ []) (hold : ∀ s ∈ rest, s.time ≤ last) (n : Nat) :
    ∃ r', drain fs junk (n + 2) ⟨path, last, some (c, rest)⟩ =
      .ok ([{ rest.getLast hne with time := junk (n + 1) }], r') ∧ r'.last = junk (n + 1) := by
  rcases getNext_open fs (junk (n + 1)) path c rest hl with ⟨pre, w, suf, h1, h2, h3, h4⟩ | ⟨h1, hne, h2⟩ | ⟨h1, h2⟩
  · have := hold w (by rw [h1]; simp); omega
  · refine ⟨⟨path, junk (n + 1), some (c, [])⟩, ?_, rfl⟩
    rw [drain, h2]
    simp only [Outcome.ok_bind, drain, getNext_end]
  · exact absurd h1 hne

/-- A negative last time blocks the reader. -/
theorem C54_negative_last_time (fs : Files) (junk : Int) (path : String) (c rest : List WSample) {last : Int}
    (hl : last < 0) :
    getNext fs junk ⟨path, last, some (c, rest)⟩ = .ok (⟨path, last, some (c, rest)⟩, none) := by
  have : ¬ (0 : Int) ≤ last := by omega
  cases rest <;> simp [getNext, scan, this]

/-- Without a file there is no sample. -/
theorem C54_no_file (fs : Files) (junk : Int) (path : String) (last : Int) (h : fs path = none) :
    getNext fs junk (create path last) = .fail .fileNotOpen := by
  simp [getNext, create, openFile, h]

example : drain (fun _ => none) (fun _ => 7) 5 ⟨"f", 2, some ([], [⟨1, 0, 0, 0⟩, ⟨3, 0, 0, 0⟩, ⟨4, 1, 0, 0⟩])⟩ =
    .ok ([⟨3, 0, 0, 0⟩, ⟨4, 1, 0, 0⟩], ⟨"f", 4, some ([], [])⟩) := by decide +kernel

/-! ## C55 -/

/-- The waypoints of the satellites if the reader's last time runs on from one file to the next. -/
def Spec.threaded (last : Int) : List (List WSample) → List (List WSample)
  | [] => []
  | c :: cs => maxima last c :: Spec.threaded (endTime last c) cs

/-- Every file ends with a sample later than the others and than the files before it. -/
def Spec.AllFresh (last : Int) : List (List WSample) → Prop
  | [] => True
  | c :: cs => EndsFresh last c ∧ Spec.AllFresh (endTime last c) cs

/-- Exact law of the installation: only the samples later than the end of the file before are used. -/
theorem C55_law (fs : Files) (junk : Nat → Nat → Int) {ps : List String} {cs : List (List WSample)}
    (h : List.Forall₂ (fun p c => fs p = some c) ps cs) (r : WReader) (hr : 0 ≤ r.last) (hf : Spec.AllFresh r.last cs) :
    ∃ r', satInstall fs junk r ps = .ok (r', Spec.threaded r.last cs) := by
  induction h generalizing r with
  | nil => exact ⟨r, rfl⟩
  | @cons p c ps cs hp _ ih =>
    obtain ⟨f1, f2⟩ := hf
    have e1 := fill_open fs (junk ps.length) p c (c.length + 1) c r.last [] (by omega) hr f1 (by simp)
    have hend : 0 ≤ endTime r.last c := by
      rcases f1 with rfl | ⟨pre, w, rfl, hw, _⟩
      · exact hr
      · simp only [endTime, List.getLast?_concat, Option.map_some, Option.getD_some]; omega
    obtain ⟨r', e2⟩ := ih ⟨p, endTime r.last c, some (c, [])⟩ hend f2
    refine ⟨r', ?_⟩
    simp only [satInstall, setFile_eq hp, hp, Option.getD_some, e1, Outcome.ok_bind, e2, List.nil_append, Spec.threaded]

/-- C55 (files whose times follow one another): every satellite gets exactly the waypoints of its file.
Missing: files covering the same time range, see `C55_same_range`. -/
theorem C55_consecutive_files_partial (fs : Files) (junk : Nat → Nat → Int) {ps : List String} {cs : List (List WSample)}
    (h : List.Forall₂ (fun p c => fs p = some c) ps cs) (r : WReader) (hr : 0 ≤ r.last)
    (hinc : Increasing cs.flatten) (hpos : ∀ s ∈ cs.flatten, r.last < s.time) :
    ∃ r', satInstall fs junk r ps = .ok (r', cs) := by
  have key : ∀ (cs : List (List WSample)) (last : Int), Increasing cs.flatten → (∀ s ∈ cs.flatten, last < s.time) →
      Spec.AllFresh last cs ∧ Spec.threaded last cs = cs := by
    intro cs
    induction cs with
    | nil => intro last _ _; exact ⟨trivial, rfl⟩
    | cons c cs ih =>
      intro last hinc hpos
      rw [List.flatten_cons] at hinc hpos
      obtain ⟨i1, i2, i3⟩ := List.pairwise_append.mp hinc
      have hfresh : EndsFresh last c := by
        rcases List.eq_nil_or_concat c with rfl | ⟨q, v, rfl⟩
        · exact Or.inl rfl
        · right
          rw [List.concat_eq_append] at i1 ⊢
          exact ⟨q, v, rfl, hpos v (by simp), fun p hp => (List.pairwise_append.mp i1).2.2 p hp v (by simp)⟩
      have hend : ∀ s ∈ cs.flatten, endTime last c < s.time := by
        intro s hs
        rcases List.eq_nil_or_concat c with rfl | ⟨q, v, rfl⟩
        · exact hpos s (by simp [hs])
        · have := i3 v (by simp) s hs
          simpa [endTime] using this
      obtain ⟨a1, a2⟩ := ih (endTime last c) i2 hend
      refine ⟨⟨hfresh, a1⟩, ?_⟩
      rw [Spec.threaded, a2, maxima_increasing i1, later, List.filter_eq_self.mpr]
      intro s hs
      have := hpos s (by simp [hs])
      simpa using this
  obtain ⟨k1, k2⟩ := key cs r.last hinc hpos
  obtain ⟨r', e⟩ := C55_law fs junk h r hr k1
  rw [k2] at e
  exact ⟨r', e⟩

/-- C55 is false: of two satellites with the same (increasing, non-empty) waypoints, the second gets a single waypoint:
the final position, at an indeterminate time. -/
theorem C55_same_range (fs : Files) (junk : Nat → Nat → Int) {p q : String} {c : List WSample} (hp : fs p = some c)
    (hq : fs q = some c) (hne : c ≠ []) (hinc : Increasing c) (hpos : ∀ s ∈ c, 0 < s.time) :
    ∃ r' j, satInstall fs junk (create "" 0) [p, q] = .ok (r', [c, [{ c.getLast hne with time := j }]]) := by
  obtain ⟨q0, v, hc⟩ : ∃ q v, c = q ++ [v] := by
    rcases List.eq_nil_or_concat c with rfl | ⟨q, v, h⟩
    · exact absurd rfl hne
    · exact ⟨q, v, by rw [h]; simp⟩
  have hvc : v ∈ c := by rw [hc]; simp
  have h3 : ∀ a ∈ q0, a.time < v.time := fun a ha => (List.pairwise_append.mp (hc ▸ hinc)).2.2 a ha v (by simp)
  have hfresh : EndsFresh 0 c := Or.inr ⟨q0, v, hc, hpos v hvc, h3⟩
  have hmax : maxima 0 c = c := by
    rw [maxima_increasing hinc, later, List.filter_eq_self.mpr]
    intro s hs
    simpa using hpos s hs
  have hend : endTime 0 c = v.time := by rw [hc]; simp [endTime]
  have e1 := fill_open fs (junk 1) p c (c.length + 1) c 0 [] (by omega) (by omega) hfresh (by simp)
  rw [hmax, hend, List.nil_append] at e1
  have hv : 0 < v.time := hpos v hvc
  have hold : ∀ s ∈ c, s.time ≤ v.time := by
    intro s hs
    rw [hc] at hs
    rcases List.mem_append.mp hs with hs | hs
    · have := h3 s hs; omega
    · rw [List.mem_singleton] at hs; rw [hs]; exact Int.le_refl _
  have hlen : ∃ m, c.length = m + 1 := ⟨q0.length, by rw [hc]; simp⟩
  obtain ⟨m, hm⟩ := hlen
  have e2 : fillWaypoints fs (junk 0) (m + 1 + 1) ⟨q, v.time, some (c, c)⟩ [] =
      .ok (⟨q, junk 0 (m + 1), some (c, [])⟩, [{ c.getLast hne with time := junk 0 (m + 1) }]) := by
    rcases getNext_open fs (junk 0 (m + 1)) q c c (by omega : (0 : Int) ≤ v.time) with ⟨pre, w, suf, g1, g2, g3, g4⟩ | ⟨g1, _, g2⟩ | ⟨g1, _⟩
    · have := hold w (by rw [g1]; simp); omega
    · rw [fillWaypoints, g2]
      simp only [Outcome.ok_bind, addWaypoint, fillWaypoints, getNext_end]
    · exact absurd g1 hne
  rw [hm] at e1
  refine ⟨⟨q, junk 0 (m + 1), some (c, [])⟩, junk 0 (m + 1), ?_⟩
  simp only [satInstall, setFile_eq hp, setFile_eq hq, hp, hq, create, Option.getD_some, e1, Outcome.ok_bind, List.length_cons,
    List.length_nil, Nat.zero_add, hm, e2]

/-- A missing waypoint file ends the program. -/
theorem C55_missing_file (fs : Files) (junk : Nat → Nat → Int) (r : WReader) {p : String} (ps : List String)
    (h : fs p = none) : satInstall fs junk r (p :: ps) = .fail .fileNotOpen := by
  have : r.setFile fs p = ⟨p, r.last, none⟩ := by simp [setFile, openFile, h]
  simp only [satInstall, this, h, Option.getD_none, List.length_nil, fillWaypoints]
  simp [getNext, openFile, h]

example : ∃ r', satInstall (fun p => if p = "a" then some [⟨1, 0, 0, 0⟩, ⟨2, 5, 0, 0⟩] else some [⟨3, 1, 0, 0⟩])
    (fun _ _ => -1) (create "" 0) ["a", "b"] = .ok (r', [[⟨1, 0, 0, 0⟩, ⟨2, 5, 0, 0⟩], [⟨3, 1, 0, 0⟩]]) :=
  ⟨⟨"b", 3, some ([⟨3, 1, 0, 0⟩], [])⟩, by decide +kernel⟩

/-! ## C56 -/

/-- C56: after `SetLastTime (t)` the reader returns the samples of the whole file later than `t` (and than the samples
before them), whatever was read before; for a file with increasing times these are all samples later than `t`.
Missing: a file whose last sample is not the latest, or not later than `t`; see `C56_rewind_any_file`. -/
theorem C56_rewind_partial (fs : Files) (junk : Nat → Int) (r : WReader) {c rest : List WSample}
    (hs : r.stream = some (c, rest) ∨ r.stream = none ∧ fs r.path = some c) {t : Int} (ht : 0 ≤ t)
    (hf : EndsFresh t c) {n : Nat} (hn : c.length < n) :
    (∃ r', drain fs junk n (r.setLastTime t) = .ok (maxima t c, r') ∧ r'.last = endTime t c) ∧
    (Increasing c → ∃ r', drain fs junk n (r.setLastTime t) = .ok (later t c, r')) := by
  have key : ∃ r', drain fs junk n (r.setLastTime t) = .ok (maxima t c, r') ∧ r'.last = endTime t c := by
    rcases hs with hs | ⟨hs, hp⟩
    · have : r.setLastTime t = ⟨r.path, t, some (c, c)⟩ := by simp [setLastTime, hs]
      rw [this, (drain_open fs junk r.path c n c t hn ht).1 hf]
      exact ⟨_, rfl, rfl⟩
    · have : r.setLastTime t = ⟨r.path, t, none⟩ := by simp [setLastTime, hs]
      obtain ⟨m, rfl⟩ : ∃ m, n = m + 1 := ⟨n - 1, by omega⟩
      have hopen : drain fs junk (m + 1) ⟨r.path, t, none⟩ = drain fs junk (m + 1) ⟨r.path, t, some (c, c)⟩ := by
        simp [drain, getNext, openFile, hp]
      rw [this, hopen, (drain_open fs junk r.path c (m + 1) c t hn ht).1 hf]
      exact ⟨_, rfl, rfl⟩
  refine ⟨key, ?_⟩
  intro hi
  obtain ⟨r', h, _⟩ := key
  exact ⟨r', by rw [h, maxima_increasing hi]⟩

/-- C56 (any file): after `SetLastTime (t)` the reader behaves as on the whole file, whatever was read before. -/
theorem C56_rewind_any_file (fs : Files) (junk : Nat → Int) (r : WReader) {c rest : List WSample}
    (hs : r.stream = some (c, rest)) {t : Int} (ht : 0 ≤ t) {n : Nat} (hn : c.length < n) :
    ∃ extra r', drain fs junk n (r.setLastTime t) = .ok (maxima t c ++ extra, r') ∧ extra.length ≤ 1 ∧
      (extra = [] ↔ EndsFresh t c) := by
  have : r.setLastTime t = ⟨r.path, t, some (c, c)⟩ := by simp [setLastTime, hs]
  obtain ⟨l, extra, r', h1, h2, _, _, _, h3, h4, _⟩ := C54_order fs junk r.path c c ht hn
  subst h2
  exact ⟨extra, r', by rw [this, h1], h3, h4⟩

/-- C56: what happened before `SetLastTime` matters only through the file that is open: two readers with the same file
open give the same samples afterwards. -/
theorem C56_independent_of_history (fs : Files) {r r' : WReader} {c rest rest' : List WSample}
    (hs : r.stream = some (c, rest)) (hs' : r'.stream = some (c, rest')) (junk : Nat → Int) (t : Int) (n : Nat) :
    (do let (l, _) ← drain fs junk n (r.setLastTime t); Outcome.ok l) =
      (do let (l, _) ← drain fs junk n (r'.setLastTime t); Outcome.ok l) := by
  have gen : ∀ n (a b : String) (last : Int) (c rest : List WSample),
      (do let (l, _) ← drain fs junk n ⟨a, last, some (c, rest)⟩; Outcome.ok l) =
      (do let (l, _) ← drain fs junk n ⟨b, last, some (c, rest)⟩; Outcome.ok l) := by
    intro n
    induction n with
    | zero => intro a b last c rest; rfl
    | succ n ih =>
      intro a b last c rest
      generalize hsc : scan last (junk n) rest ⟨0, 0, 0, 0⟩ false = sc
      obtain ⟨u, s, rest'⟩ := sc
      cases u with
      | false => simp [drain, getNext, hsc]
      | true =>
        have := ih a b s.time c rest'
        simp only [drain, getNext, Option.isNone_some, Bool.false_eq_true, if_false, hsc, Outcome.ok_bind]
        generalize drain fs junk n ⟨a, s.time, some (c, rest')⟩ = da at this ⊢
        generalize drain fs junk n ⟨b, s.time, some (c, rest')⟩ = db at this ⊢
        cases da <;> cases db <;> simp_all
  have e1 : r.setLastTime t = ⟨r.path, t, some (c, c)⟩ := by simp [setLastTime, hs]
  have e2 : r'.setLastTime t = ⟨r'.path, t, some (c, c)⟩ := by simp [setLastTime, hs']
  rw [e1, e2]
  exact gen n r.path r'.path t c c

/-- The attribute "LastTime" does not rewind: at the end of the file nothing more is returned. -/
theorem C56_attribute_does_not_rewind (fs : Files) (junk : Int) (r : WReader) {c : List WSample}
    (hs : r.stream = some (c, [])) (t : Int) : ∃ r', getNext fs junk (r.setLastTimeAttribute t) = .ok (r', none) := by
  have : r.setLastTimeAttribute t = ⟨r.path, t, some (c, [])⟩ := by simp [setLastTimeAttribute, hs]
  rw [this]
  exact ⟨_, getNext_end fs junk _ _ _⟩

example : ∃ r, run (fun _ => some [⟨1, 0, 0, 0⟩, ⟨2, 5, 0, 0⟩]) (create "f" 0) [.getNext 0, .getNext 0, .getNext 9] = .ok r ∧
    drain (fun _ => some [⟨1, 0, 0, 0⟩, ⟨2, 5, 0, 0⟩]) (fun _ => 0) 3 (r.setLastTime 1) =
      .ok ([⟨2, 5, 0, 0⟩], ⟨"f", 2, some ([⟨1, 0, 0, 0⟩, ⟨2, 5, 0, 0⟩], [])⟩) :=
  ⟨⟨"f", 2, some ([⟨1, 0, 0, 0⟩, ⟨2, 5, 0, 0⟩], [])⟩, by decide +kernel, by decide +kernel⟩

end Verif
