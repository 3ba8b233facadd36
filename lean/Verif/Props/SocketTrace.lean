import Verif.Spec.SocketTrace
import Mathlib.Data.List.Induction
/-!
# The output of the bulk-send program: C126
-/

namespace Verif
namespace SocketTraceProofs
open Spec

theorem exec_append (insists : Bool) (a b : List TcpOp) : ∀ s : TcpSt, s.exec insists (a ++ b) = (s.exec insists a).bind fun s' => s'.exec insists b := by
  induction a with
  | nil => intro s; rfl
  | cons op a ih =>
    intro s
    show (s.step insists op).bind _ = ((s.step insists op).bind _).bind _
    cases s.step insists op with
    | none => rfl
    | some s' => exact ih s'

/-- A simulation without connections prints nothing and counts the bytes. -/
theorem exec_run (insists : Bool) : ∀ (run : List TcpOp) (s : TcpSt), OnlySimulates run → s.sinks = [] →
    ∃ s', s.exec insists run = some s' ∧ s'.lines = s.lines ∧ s'.total % 2 ^ 64 = (s.total + sinkBytes run) % 2 ^ 64 ∧ (s.total < 2 ^ 64 → s'.total < 2 ^ 64) := by
  intro run
  induction run with
  | nil => intro s _ _; exact ⟨s, rfl, rfl, rfl, id⟩
  | cons op run ih =>
    intro s ho hs
    have ho' : OnlySimulates run := fun src hm => ho src (List.mem_cons_of_mem _ hm)
    cases op with
    | create n k => exact ih { s with sockets := s.sockets ++ [(n, k)] } ho' hs
    | close k => exact ih { s with sockets := s.sockets.filter (·.2 != k) } ho' hs
    | segment t k src uid seq =>
      obtain ⟨s', h1, h2, h3, h4⟩ := ih { s with lines := s.lines ++ (s.sinks.filter (· == (k, src))).map fun c => ⟨t, c.1, c.2, uid, seq⟩ } ho' hs
      exact ⟨s', h1, by rw [h2]; simp [hs], h3, h4⟩
    | receive b =>
      obtain ⟨s', h1, h2, h3, h4⟩ := ih { s with total := (s.total + b) % 2 ^ 64 } ho' hs
      refine ⟨s', h1, h2, ?_, fun _ => h4 (Nat.mod_lt _ (by decide))⟩
      rw [h3]
      show ((s.total + b) % 2 ^ 64 + sinkBytes run) % 2 ^ 64 = (s.total + (b + sinkBytes run)) % 2 ^ 64
      omega
    | connect src => exact absurd List.mem_cons_self (ho src)

theorem listed_snoc {ops : List TcpOp} {op : TcpOp} {k : Nat} : Listed (ops ++ [op]) k ↔ (∃ n, op = .create n k) ∨ (Listed ops k ∧ op ≠ .close k) := by
  constructor
  · rintro ⟨a, n, b, he, hb⟩
    rcases List.eq_nil_or_concat b with rfl | ⟨b', x, rfl⟩
    · have := List.append_inj' he rfl
      left
      exact ⟨n, by simpa using this.2⟩
    · rw [List.concat_eq_append, ← List.cons_append, ← List.append_assoc] at he
      obtain ⟨h1, h2⟩ := List.append_inj' he rfl
      obtain rfl : op = x := by simpa using h2
      right
      rw [List.concat_eq_append] at hb
      exact ⟨⟨a, n, b', h1, fun hm => hb (by simp [hm])⟩, fun hx => hb (by simp [hx])⟩
  · rintro (⟨n, rfl⟩ | ⟨⟨a, n, b, rfl, hb⟩, hx⟩)
    · exact ⟨ops, n, [], rfl, by simp⟩
    · refine ⟨a, n, b ++ [op], by simp, ?_⟩
      rw [List.mem_append, List.mem_singleton]
      rintro (hm | hm)
      · exact hb hm
      · exact hx hm.symm

/-- The sockets in the lists, and the connections. -/
theorem exec_state (ops : List TcpOp) : ∃ s, TcpSt.start.exec false ops = some s ∧ (∀ k, (∃ n, (n, k) ∈ s.sockets) ↔ Listed ops k) ∧
    (∀ k src, (k, src) ∈ s.sinks ↔ ∃ a b, ops = a ++ .connect src :: b ∧ Listed a k) ∧
    (∀ l ∈ s.lines, ∃ a b c, ops = a ++ .connect l.source :: (b ++ .segment l.now l.k l.source l.uid l.seq :: c) ∧ Listed a l.k) ∧
    (∀ a b c t k src uid seq, ops = a ++ .connect src :: (b ++ .segment t k src uid seq :: c) → Listed a k → (⟨t, k, src, uid, seq⟩ : TcpLine) ∈ s.lines) := by
  induction ops using List.reverseRecOn with
  | nil =>
    refine ⟨.start, rfl, fun k => ?_, fun k src => ?_, fun l hl => by simp [TcpSt.start] at hl, fun a b c t k src uid seq he => by simp at he⟩
    · constructor
      · rintro ⟨n, hm⟩; simp [TcpSt.start] at hm
      · rintro ⟨a, n, b, he, _⟩; simp at he
    · constructor
      · intro hm; simp [TcpSt.start] at hm
      · rintro ⟨a, b, he, _⟩; simp at he
  | append_singleton ops op ih =>
    obtain ⟨s, h1, h2, h3, h4, h5⟩ := ih
    have next : ∀ s', s.step false op = some s' → TcpSt.start.exec false (ops ++ [op]) = some s' := by
      intro s' hs
      rw [exec_append, h1]
      show (s.step false op).bind _ = _
      rw [hs]; rfl
    -- connections of the longer history
    have conns : ∀ k src, (∃ a b, ops ++ [op] = a ++ .connect src :: b ∧ Listed a k) ↔ (k, src) ∈ s.sinks ∨ (op = .connect src ∧ Listed ops k) := by
      intro k src
      rw [h3]
      constructor
      · rintro ⟨a, b, he, hl⟩
        rcases List.eq_nil_or_concat b with rfl | ⟨b', x, rfl⟩
        · obtain ⟨k1, k2⟩ := List.append_inj' he rfl
          right
          exact ⟨by simpa using k2, k1 ▸ hl⟩
        · rw [List.concat_eq_append, ← List.cons_append, ← List.append_assoc] at he
          obtain ⟨k1, _⟩ := List.append_inj' he rfl
          exact Or.inl ⟨a, b', k1, hl⟩
      · rintro (⟨a, b, rfl, hl⟩ | ⟨rfl, hl⟩)
        · exact ⟨a, b ++ [op], by simp, hl⟩
        · exact ⟨ops, [], rfl, hl⟩
    have old : ∀ l : TcpLine, (∃ a b c, ops = a ++ .connect l.source :: (b ++ .segment l.now l.k l.source l.uid l.seq :: c) ∧ Listed a l.k) →
        ∃ a b c, ops ++ [op] = a ++ .connect l.source :: (b ++ .segment l.now l.k l.source l.uid l.seq :: c) ∧ Listed a l.k := by
      rintro l ⟨a, b, c, rfl, hl⟩
      exact ⟨a, b, c ++ [op], by simp, hl⟩
    have back : ∀ a b c t k src uid seq, ops ++ [op] = a ++ .connect src :: (b ++ .segment t k src uid seq :: c) → Listed a k →
        (⟨t, k, src, uid, seq⟩ : TcpLine) ∈ s.lines ∨ (op = .segment t k src uid seq ∧ (k, src) ∈ s.sinks) := by
      intro a b c t k src uid seq he hl
      rcases List.eq_nil_or_concat c with rfl | ⟨c', x, rfl⟩
      · have he : ops ++ [op] = (a ++ .connect src :: b) ++ [.segment t k src uid seq] := by rw [he]; simp
        obtain ⟨k1, k2⟩ := List.append_inj' he rfl
        exact Or.inr ⟨by simpa using k2, (h3 k src).mpr ⟨a, b, k1, hl⟩⟩
      · have he : ops ++ [op] = (a ++ .connect src :: (b ++ .segment t k src uid seq :: c')) ++ [x] := by rw [he]; simp
        obtain ⟨k1, _⟩ := List.append_inj' he rfl
        exact Or.inl (h5 a b c' t k src uid seq k1 hl)
    cases op with
    | create n k =>
      refine ⟨{ s with sockets := s.sockets ++ [(n, k)] }, next _ rfl, fun j => ?_, fun j src => ?_, fun l hl => old l (h4 l hl),
        fun a b c t j src uid seq he hl => ?_⟩
      · rw [listed_snoc, ← h2]
        constructor
        · rintro ⟨m, hm⟩
          rcases List.mem_append.mp hm with hm | hm
          · exact Or.inr ⟨⟨m, hm⟩, by simp⟩
          · simp only [List.mem_singleton, Prod.mk.injEq] at hm
            exact Or.inl ⟨n, by rw [hm.2]⟩
        · rintro (⟨m, hm⟩ | ⟨⟨m, hm⟩, _⟩)
          · injection hm with hm1 hm2
            exact ⟨n, by simp [hm2]⟩
          · exact ⟨m, List.mem_append_left _ hm⟩
      · rw [conns]; simp
      · rcases back a b c t j src uid seq he hl with h | ⟨h, _⟩
        · exact h
        · cases h
    | close k =>
      refine ⟨{ s with sockets := s.sockets.filter (·.2 != k) }, next _ rfl, fun j => ?_, fun j src => ?_, fun l hl => old l (h4 l hl),
        fun a b c t j src uid seq he hl => ?_⟩
      · rw [listed_snoc, ← h2]
        constructor
        · rintro ⟨m, hm⟩
          rw [List.mem_filter] at hm
          refine Or.inr ⟨⟨m, hm.1⟩, fun h => ?_⟩
          injection h with h
          simp [h] at hm
        · rintro (⟨m, hm⟩ | ⟨⟨m, hm⟩, hne⟩)
          · cases hm
          · refine ⟨m, List.mem_filter.mpr ⟨hm, ?_⟩⟩
            have : j ≠ k := fun h => hne (by rw [h])
            simpa using this
      · rw [conns]; simp
      · rcases back a b c t j src uid seq he hl with h | ⟨h, _⟩
        · exact h
        · cases h
    | segment t k src uid seq =>
      refine ⟨{ s with lines := s.lines ++ (s.sinks.filter (· == (k, src))).map fun c => ⟨t, c.1, c.2, uid, seq⟩ }, next _ rfl, fun j => ?_, fun j src' => ?_, ?_, ?_⟩
      · rw [listed_snoc, ← h2]; simp
      · rw [conns]; simp
      · intro l hl
        rcases List.mem_append.mp hl with hl | hl
        · exact old l (h4 l hl)
        · obtain ⟨c, hc, rfl⟩ := List.mem_map.mp hl
          obtain ⟨hc1, hc2⟩ := List.mem_filter.mp hc
          obtain rfl : c = (k, src) := by simpa using hc2
          obtain ⟨a, b, rfl, hl⟩ := (h3 k src).mp hc1
          exact ⟨a, b, [], by simp, hl⟩
      · intro a b c t' k' src' uid' seq' he hl
        refine List.mem_append.mpr ?_
        rcases back a b c t' k' src' uid' seq' he hl with h | ⟨h, hm⟩
        · exact Or.inl h
        · injection h with e1 e2 e3 e4 e5
          subst e1 e2 e3 e4 e5
          exact Or.inr (List.mem_map.mpr ⟨(k, src), List.mem_filter.mpr ⟨hm, by simp⟩, rfl⟩)
    | receive b =>
      refine ⟨{ s with total := (s.total + b) % 2 ^ 64 }, next _ rfl, fun j => ?_, fun j src => ?_, fun l hl => old l (h4 l hl),
        fun a b c t j src uid seq he hl => ?_⟩
      · rw [listed_snoc, ← h2]; simp
      · rw [conns]; simp
      · rcases back a b c t j src uid seq he hl with h | ⟨h, _⟩
        · exact h
        · cases h
    | connect src =>
      refine ⟨{ s with sinks := s.sinks ++ s.sockets.map fun x => (x.2, src) }, next _ (by simp [TcpSt.step]), fun j => ?_, fun j src' => ?_, fun l hl => old l (h4 l hl),
        fun a b c t j src uid seq he hl => ?_⟩
      · rw [listed_snoc, ← h2]; simp
      · rw [conns, List.mem_append, ← h2]
        refine or_congr Iff.rfl ?_
        constructor
        · intro hm
          obtain ⟨x, hx, he⟩ := List.mem_map.mp hm
          injection he with e1 e2
          exact ⟨by rw [e2], x.1, by rw [← e1]; exact hx⟩
        · rintro ⟨h, n, hn⟩
          injection h with h
          exact List.mem_map.mpr ⟨(n, j), hn, by rw [h]⟩
      · rcases back a b c t j src uid seq he hl with h | ⟨h, _⟩
        · exact h
        · cases h

end SocketTraceProofs

open Spec SocketTraceProofs

/-- **C126**: where `Config::Connect` does not insist on a match, the program prints one line and no more: the numbers of the users and the bytes that reached the sink
(as far as 64 bits tell).  Whatever segments are sent and received, none has a line. -/
theorem C126_output_partial (l r : Nat) {run : List TcpOp} (h : OnlySimulates run) : bulkOutput false l r run = some ([], (l, r, sinkBytes run % 2 ^ 64)) := by
  obtain ⟨s', h1, h2, h3, h4⟩ := exec_run false run ⟨[], [], [], 0⟩ h rfl
  have he : TcpSt.start.exec false (.connect .tx :: .connect .rx :: run) = some s' := h1
  unfold bulkOutput
  rw [he]
  have h4 := h4 (by decide)
  have h3 : s'.total % 2 ^ 64 = sinkBytes run % 2 ^ 64 := by rw [h3]; exact congrArg (· % 2 ^ 64) (Nat.zero_add _)
  rw [Nat.mod_eq_of_lt h4] at h3
  show some (s'.lines, (l, r, s'.total)) = _
  rw [h2, h3]

/-- **C126**: where it insists, the program stops before the simulation. -/
theorem C126_fatal (l r : Nat) (run : List TcpOp) : bulkOutput true l r run = none := rfl

/-- **C126** fails: segments have no lines, in either version. -/
theorem C126_not_echoed : ¬ SegmentsAreEchoed true ∧ ¬ SegmentsAreEchoed false := by
  refine ⟨fun h => ?_, fun h => ?_⟩
  · obtain ⟨lines, last, he, _⟩ := h 0 1 [] (by intro src hm; cases hm) (by intro a b n k he; simp at he)
    rw [C126_fatal] at he
    cases he
  · have ho : OnlySimulates [.create 0 0, .segment 0 0 .tx 7 0] := by intro src hm; simp at hm
    obtain ⟨lines, last, he, hl⟩ := h 0 1 [.create 0 0, .segment 0 0 .tx 7 0] ho (by
      intro a b n k he
      cases a with
      | nil => intro op hop; cases hop
      | cons x a =>
        cases a with
        | nil => simp at he
        | cons y a => simp at he)
    rw [C126_output_partial 0 1 ho] at he
    injection he with he
    injection he with he _
    have := hl 0 0 .tx 7 0 (by simp)
    rw [← he] at this
    cases this

/-- **C126**: the order is the reason.  In any history of sockets, segments and connections exactly those segments have a line whose socket was listed when its source was
connected, at some moment before the segment. -/
theorem C126_connected (ops : List TcpOp) : ∃ s, TcpSt.start.exec false ops = some s ∧
    ∀ l : TcpLine, l ∈ s.lines ↔ ∃ a b c, ops = a ++ .connect l.source :: (b ++ .segment l.now l.k l.source l.uid l.seq :: c) ∧ Listed a l.k := by
  obtain ⟨s, h1, _, _, h4, h5⟩ := exec_state ops
  refine ⟨s, h1, fun l => ⟨h4 l, ?_⟩⟩
  rintro ⟨a, b, c, he, hl⟩
  exact h5 a b c l.now l.k l.source l.uid l.seq he hl

/-- A simulation: the sink listens, the sender connects and sends a segment, which arrives at the socket of the accepted connection. -/
def someRun : List TcpOp :=
  [.create 1 0, .create 0 1, .segment 0 1 .tx 7 0, .create 1 2, .segment 40 2 .rx 7 0, .receive 512, .receive 24, .close 1]

/-- It is as `C126_output_partial` asks for, and its output is the last line. -/
example : OnlySimulates someRun ∧ bulkOutput false 0 1 someRun = some ([], (0, 1, 536)) := by
  refine ⟨fun src hm => ?_, by decide⟩
  simp [someRun] at hm

/-- Connected once the sockets are there, a segment has its line. -/
example : ((TcpSt.start.exec false ([.create 0 1] ++ .connect .tx :: ([] ++ .segment 5 1 .tx 7 0 :: []))).map (·.lines)) = some [⟨5, 1, .tx, 7, 0⟩] := by
  decide

end Verif
