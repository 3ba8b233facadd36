import Verif.Spec.Waypoint
/-!
# Waypoint reader: scanning and draining
-/

namespace Verif
open Spec WReader

/-- The loop either stops behind the first later sample or reaches the end. -/
theorem scan_spec (last junk : Int) : ∀ (rest : List WSample) (s : WSample) (upd : Bool), s.time ≤ last →
    (∃ pre w suf, rest = pre ++ w :: suf ∧ (∀ p ∈ pre, p.time ≤ last) ∧ last < w.time ∧
      scan last junk rest s upd = (true, w, suf)) ∨
    ((∀ p ∈ rest, p.time ≤ last) ∧
      scan last junk rest s upd = (upd || !rest.isEmpty, { (s :: rest).getLast (by simp) with time := junk }, [])) := by
  intro rest
  induction rest with
  | nil =>
    intro s upd h
    right
    simp [scan, h]
  | cons w ws ih =>
    intro s upd h
    simp only [scan, if_pos h]
    by_cases hw : w.time ≤ last
    · rcases ih w true hw with ⟨pre, v, suf, h1, h2, h3, h4⟩ | ⟨h1, h2⟩
      · left
        refine ⟨w :: pre, v, suf, by rw [h1]; rfl, ?_, h3, h4⟩
        intro p hp
        rcases List.mem_cons.mp hp with rfl | hp
        · exact hw
        · exact h2 p hp
      · right
        refine ⟨?_, ?_⟩
        · intro p hp
          rcases List.mem_cons.mp hp with rfl | hp
          · exact hw
          · exact h1 p hp
        · rw [h2]
          simp
    · left
      refine ⟨[], w, ws, rfl, by simp, by omega, ?_⟩
      cases ws with
      | nil => simp [scan, hw]
      | cons v vs => simp [scan, hw]

theorem maxima_skip {last : Int} {pre l : List WSample} (h : ∀ p ∈ pre, p.time ≤ last) :
    maxima last (pre ++ l) = maxima last l := by
  induction pre with
  | nil => rfl
  | cons p pre ih =>
    have := h p (by simp)
    rw [List.cons_append, maxima, if_neg (by omega)]
    exact ih (fun q hq => h q (by simp [hq]))

theorem maxima_none {last : Int} {l : List WSample} (h : ∀ p ∈ l, p.time ≤ last) : maxima last l = [] := by
  have := maxima_skip (l := []) h
  rwa [List.append_nil] at this

theorem maxima_chain (l : List WSample) : ∀ last : Int,
    (∀ s ∈ maxima last l, last < s.time) ∧ (maxima last l).Pairwise (fun a b => a.time < b.time) ∧
    (maxima last l).Sublist l := by
  induction l with
  | nil => intro last; simp [maxima]
  | cons s ss ih =>
    intro last
    rw [maxima]
    split
    · rename_i h
      obtain ⟨h1, h2, h3⟩ := ih s.time
      refine ⟨?_, ?_, h3.cons_cons s⟩
      · intro x hx
        rcases List.mem_cons.mp hx with rfl | hx
        · exact h
        · have := h1 x hx; omega
      · exact List.pairwise_cons.mpr ⟨h1, h2⟩
    · obtain ⟨h1, h2, h3⟩ := ih last
      exact ⟨h1, h2, h3.cons s⟩

theorem maxima_increasing {l : List WSample} (h : Increasing l) : ∀ last : Int, maxima last l = later last l := by
  induction l with
  | nil => intro last; rfl
  | cons s ss ih =>
    intro last
    obtain ⟨h1, h2⟩ := List.pairwise_cons.mp h
    rw [maxima, later]
    split
    · rename_i hl
      rw [List.filter_cons, if_pos (by simpa using hl), ih h2]
      congr 1
      refine List.filter_congr ?_
      intro x hx
      have := h1 x hx
      simp only [decide_eq_decide]
      omega
    · rename_i hl
      rw [List.filter_cons, if_neg (by simpa using hl), ih h2]
      rfl

/-- One call on an open reader. -/
theorem getNext_open (fs : Files) (junk : Int) (path : String) {last : Int} (c rest : List WSample) (hl : 0 ≤ last) :
    (∃ pre w suf, rest = pre ++ w :: suf ∧ (∀ p ∈ pre, p.time ≤ last) ∧ last < w.time ∧
      getNext fs junk ⟨path, last, some (c, rest)⟩ = .ok (⟨path, w.time, some (c, suf)⟩, some w)) ∨
    ((∀ p ∈ rest, p.time ≤ last) ∧ ∃ h : rest ≠ [],
      getNext fs junk ⟨path, last, some (c, rest)⟩ =
        .ok (⟨path, junk, some (c, [])⟩, some { rest.getLast h with time := junk })) ∨
    (rest = [] ∧ getNext fs junk ⟨path, last, some (c, rest)⟩ = .ok (⟨path, last, some (c, [])⟩, none)) := by
  rcases scan_spec last junk rest ⟨0, 0, 0, 0⟩ false hl with ⟨pre, w, suf, h1, h2, h3, h4⟩ | ⟨h1, h2⟩
  · left
    refine ⟨pre, w, suf, h1, h2, h3, ?_⟩
    simp [getNext, h4]
  · right
    cases rest with
    | nil =>
      right
      refine ⟨rfl, ?_⟩
      simp [getNext, h2]
    | cons v vs =>
      left
      refine ⟨h1, by simp, ?_⟩
      simp [getNext, h2]

/-- A reader at the end of its file reports the end, whatever its last time. -/
theorem getNext_end (fs : Files) (junk : Int) (path : String) (last : Int) (c : List WSample) :
    getNext fs junk ⟨path, last, some (c, [])⟩ = .ok (⟨path, last, some (c, [])⟩, none) := by
  by_cases hl : 0 ≤ last
  · simp [getNext, scan, hl]
  · simp [getNext, scan, hl]

theorem endsFresh_step {last : Int} {pre suf : List WSample} {w : WSample} (h1 : ∀ p ∈ pre, p.time ≤ last)
    (h2 : last < w.time) : EndsFresh last (pre ++ w :: suf) ↔ EndsFresh w.time suf := by
  rcases List.eq_nil_or_concat suf with rfl | ⟨q, v, rfl⟩
  · constructor
    · intro _; exact Or.inl rfl
    · intro _
      right
      exact ⟨pre, w, rfl, h2, fun p hp => by have := h1 p hp; omega⟩
  · have e : pre ++ w :: (q.concat v) = (pre ++ w :: q) ++ [v] := by simp
    constructor
    · rintro (h | ⟨a, b, h, hb, ha⟩)
      · simp at h
      · rw [e] at h
        obtain ⟨ha', hb'⟩ := List.append_inj' h rfl
        injection hb' with hb' _
        subst hb'
        subst ha'
        right
        refine ⟨q, v, by simp, ha w (by simp), fun p hp => ha p (by simp [hp])⟩
    · rintro (h | ⟨a, b, h, hb, ha⟩)
      · simp at h
      · rw [List.concat_eq_append] at h
        obtain ⟨ha', hb'⟩ := List.append_inj' h rfl
        injection hb' with hb' _
        subst hb'
        subst ha'
        right
        refine ⟨_, v, e, by omega, ?_⟩
        intro p hp
        rcases List.mem_append.mp hp with hp | hp
        · have := h1 p hp; omega
        · rcases List.mem_cons.mp hp with rfl | hp
          · exact hb
          · exact ha p hp

theorem endsFresh_none {last : Int} {l : List WSample} (h : ∀ p ∈ l, p.time ≤ last) (hne : l ≠ []) : ¬ EndsFresh last l := by
  rintro (h' | ⟨a, b, rfl, hb, _⟩)
  · exact hne h'
  · have := h b (by simp); omega

theorem endTime_step (last : Int) (pre suf : List WSample) (w : WSample) :
    endTime last (pre ++ w :: suf) = endTime w.time suf := by
  unfold endTime
  rw [List.getLast?_append]
  cases suf with
  | nil => simp
  | cons a b =>
    rw [List.getLast?_cons_cons, List.getLast?_eq_some_getLast (by simp)]
    rfl

/-- Exact result of draining an open reader. -/
theorem drain_open (fs : Files) (junk : Nat → Int) (path : String) (c : List WSample) : ∀ (n : Nat) (rest : List WSample)
    (last : Int), rest.length < n → 0 ≤ last →
    (EndsFresh last rest → drain fs junk n ⟨path, last, some (c, rest)⟩ =
      .ok (maxima last rest, ⟨path, endTime last rest, some (c, [])⟩)) ∧
    (¬ EndsFresh last rest → ∃ (j : Int) (w : WSample), rest.getLast? = some w ∧
      drain fs junk n ⟨path, last, some (c, rest)⟩ =
        .ok (maxima last rest ++ [{ w with time := j }], ⟨path, j, some (c, [])⟩)) := by
  intro n
  induction n with
  | zero => intro rest last h; omega
  | succ n ih =>
    intro rest last hn hl
    rcases getNext_open fs (junk n) path c rest hl with ⟨pre, w, suf, h1, h2, h3, h4⟩ | ⟨h1, hne, h2⟩ | ⟨h1, h2⟩
    · have hlen : suf.length < n := by rw [h1] at hn; simp at hn; omega
      obtain ⟨g1, g2⟩ := ih suf w.time hlen (by omega)
      have hm : maxima last rest = w :: maxima w.time suf := by
        rw [h1, maxima_skip h2, maxima, if_pos h3]
      have he : endTime last rest = endTime w.time suf := by rw [h1, endTime_step]
      constructor
      · intro hf
        rw [h1, endsFresh_step h2 h3] at hf
        simp only [drain, h4, Outcome.ok_bind, g1 hf, hm, he]
      · intro hf
        rw [h1, endsFresh_step h2 h3] at hf
        obtain ⟨j, v, hv, hd⟩ := g2 hf
        refine ⟨j, v, ?_, ?_⟩
        · rw [h1]
          cases suf with
          | nil => simp at hv
          | cons a b => rw [List.getLast?_append, List.getLast?_cons_cons, hv]; rfl
        · simp only [drain, h4, Outcome.ok_bind, hd, hm, List.cons_append]
    · constructor
      · intro hf; exact absurd hf (endsFresh_none h1 hne)
      · intro _
        refine ⟨junk n, rest.getLast hne, List.getLast?_eq_some_getLast hne, ?_⟩
        obtain ⟨m, rfl⟩ : ∃ m, n = m + 1 := ⟨n - 1, by have := List.length_pos_iff.mpr hne; omega⟩
        rw [maxima_none h1]
        rw [drain, h2]
        simp only [Outcome.ok_bind, drain, getNext_end]
        rfl
    · subst h1
      constructor
      · intro _
        simp only [drain, h2, Outcome.ok_bind]
        rfl
      · intro hf; exact absurd (Or.inl rfl) hf

theorem addWaypoint_later {l : List WSample} {s : WSample} {t : Int} (h : ∀ a ∈ l, a.time ≤ t) (hs : t < s.time) :
    addWaypoint l s = .ok (l ++ [s]) := by
  unfold addWaypoint
  split
  · rfl
  · rfl
  · rename_i l' hne _
    have hl : l ≠ [] := hne
    rw [List.getLast?_eq_some_getLast hl]
    have := h _ (List.getLast_mem hl)
    rw [if_neg]
    simp only [Option.map_some, Option.getD_some]
    omega

/-- The waypoints of one satellite, if the last record of the file is later than all others and than the last time. -/
theorem fill_open (fs : Files) (junk : Nat → Int) (path : String) (c : List WSample) : ∀ (n : Nat) (rest : List WSample)
    (last : Int) (l : List WSample), rest.length < n → 0 ≤ last → EndsFresh last rest → (∀ a ∈ l, a.time ≤ last) →
    fillWaypoints fs junk n ⟨path, last, some (c, rest)⟩ l =
      .ok (⟨path, endTime last rest, some (c, [])⟩, l ++ maxima last rest) := by
  intro n
  induction n with
  | zero => intro rest last l h; omega
  | succ n ih =>
    intro rest last l hn hl hf ha
    rcases getNext_open fs (junk n) path c rest hl with ⟨pre, w, suf, h1, h2, h3, h4⟩ | ⟨h1, hne, h2⟩ | ⟨h1, h2⟩
    · have hlen : suf.length < n := by rw [h1] at hn; simp at hn; omega
      have hm : maxima last rest = w :: maxima w.time suf := by
        rw [h1, maxima_skip h2, maxima, if_pos h3]
      have he : endTime last rest = endTime w.time suf := by rw [h1, endTime_step]
      rw [h1, endsFresh_step h2 h3] at hf
      have := ih suf w.time (l ++ [w]) hlen (by omega) hf (by
        intro a ha'
        rcases List.mem_append.mp ha' with h | h
        · have := ha a h; omega
        · rw [List.mem_singleton] at h; rw [h]; exact Int.le_refl _)
      simp only [fillWaypoints, h4, Outcome.ok_bind, addWaypoint_later ha h3, this, hm, he, List.append_assoc,
        List.singleton_append]
    · exact absurd hf (endsFresh_none h1 hne)
    · subst h1
      simp only [fillWaypoints, h2, Outcome.ok_bind, maxima, List.append_nil]
      rfl

theorem setFile_eq {fs : Files} {p : String} {c : List WSample} (h : fs p = some c) (r : WReader) :
    r.setFile fs p = ⟨p, r.last, some (c, c)⟩ := by
  simp [setFile, openFile, h]

end Verif
