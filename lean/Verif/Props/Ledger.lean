import Verif.Lemmas.Ledger
import Verif.Demo
/-!
# What drop traces account for: C102
-/

namespace Verif
open Verif.Spec

/-- C102: every packet given to a device was dropped by it (MacTxDrop), has been put on air (PhyTxBegin) or waits in its queue. -/
theorem C102_senders {E : Env} {s0 s : Sys} {ops : List Op} {n : Nat} (h0 : Initial s0) (h : exec E s0 ops = .ok s) (hn : SendersBelow n ops) :
    tally .sent s.log = tally .macTxDrop s.log + tally .begun s.log + waiting n s :=
  (books_exec (books_initial h0) hn h).sends

/-- C102: every copy a channel hands out arrives once or is on its way; an arriving copy is dropped as one's own (MacRxDrop) or heard
(PhyRxEnd); of those heard, at most all are dropped (PhyRxDrop) or passed up. -/
theorem C102_receivers {E : Env} {s0 s : Sys} {ops : List Op} (h0 : Initial s0) (h : exec E s0 ops = .ok s) :
    tally .copied s.log = inFlight s + tally .arrived s.log ∧ tally .arrived s.log = tally .macRxDrop s.log + tally .heard s.log ∧
      tally .phyRxDrop s.log + tally .passedUp s.log ≤ tally .heard s.log := by
  obtain ⟨n, hn⟩ := exists_sendersBelow ops
  have hb := books_exec (books_initial h0) hn h
  exact ⟨hb.copies, hb.arrivals, hb.heard⟩

/-- C102: inter-satellite links, one peer per device: at any time every packet given to a device waits, is on its way, was dropped with a
trace, or was passed up. -/
theorem C102_isl_partial {E : Env} {s0 s : Sys} {ops : List Op} {n : Nat} {peer : DevId → Mac48} (h0 : Initial s0) (h : exec E s0 ops = .ok s)
    (hn : SendersBelow n ops) (hp : OnePeer s0 peer ops) : tally .sent s.log = accounted s.log + waiting n s + inFlight s := by
  have hb := books_exec (books_initial h0) hn h
  have hd := direct_exec (direct_initial h0) hp h
  have h1 := hb.sends
  have h2 := hb.copies
  have h3 := hb.arrivals
  have h4 := hd.begun
  have h5 := hd.heard
  unfold accounted
  omega

/-- C102: … and nothing vanishes once the simulation is over. -/
theorem C102_isl_end_partial {E : Env} {s0 s : Sys} {ops : List Op} {peer : DevId → Mac48} (h0 : Initial s0) (h : exec E s0 ops = .ok s)
    (hp : OnePeer s0 peer ops) (hend : s.pending = []) : tally .sent s.log = accounted s.log := by
  obtain ⟨n, hn⟩ := exists_sendersBelow ops
  have h1 := C102_isl_partial h0 h hn hp
  have hw : waiting n s = 0 := by
    unfold waiting
    rw [List.sum_eq_zero]
    intro x hx
    obtain ⟨d, _, rfl⟩ := List.mem_map.mp hx
    rw [queue_empty_at_end h0 h hend]; rfl
  have hf : inFlight s = 0 := by rw [inFlight_eq, hend]; rfl
  omega

/-! ## Where packets vanish -/

/-- Satellite 3 is out of reach. -/
def c102Env : Env := { Demo.env with hasMob := fun _ => true, loss := fun _ => some fun p _ n _ => if n = 3 then -1000 else p }

/-- A ground station sends to satellite 3, which is out of reach, while satellite 1 hears the frame. -/
def c102Leo : List Op := [.attach 0 0, .attach 1 0, .attach 3 0, .send 0 [1] (.mac (Demo.mac 4)) 1, .run, .run]

/-- Satellite 1 sends to satellite 3 and, while still transmitting, to satellite 5. -/
def c102Isl : List Op :=
  [.attach 1 1, .attach 3 1, .attach 5 1, .send 1 [1] (.mac (Demo.mac 4)) 1, .send 1 [2] (.mac (Demo.mac 6)) 1, .run, .run, .run, .run]

/-- C102 is false between ground and space: a frame to a satellite out of reach is heard by another one, and no trace tells of its loss. -/
theorem C102_vanishes_leo : ¬ NothingVanishes := by
  intro h
  obtain ⟨s, h1, h2⟩ := Demo.exists_of_check (E := c102Env) (s := Demo.sys) (ops := c102Leo)
    (test := fun s => s.pending.isEmpty && tally .sent s.log == 1 && accounted s.log == 0) (by decide +kernel)
  simp only [Bool.and_eq_true, beq_iff_eq, List.isEmpty_iff] at h2
  have := h c102Env _ _ _ Demo.sys_initial h1 h2.1.1
  omega

/-- C102 is false with more than one destination: the second frame is carried to the first satellite, which ignores it silently. -/
theorem C102_vanishes_isl : ∃ s, exec Demo.env Demo.sys c102Isl = .ok s ∧ s.pending = [] ∧ tally .sent s.log = 2 ∧ tally .passedUp s.log = 1 ∧
    accounted s.log = 1 ∧ (∀ d c, .attach d c ∈ c102Isl → (Demo.sys.chan c).kind = .isl) := by
  obtain ⟨s, h1, h2⟩ := Demo.exists_of_check (E := Demo.env) (s := Demo.sys) (ops := c102Isl)
    (test := fun s => s.pending.isEmpty && tally .sent s.log == 2 && tally .passedUp s.log == 1 && accounted s.log == 1) (by decide +kernel)
  simp only [Bool.and_eq_true, beq_iff_eq, List.isEmpty_iff] at h2
  refine ⟨s, h1, h2.1.1.1, h2.1.1.2, h2.1.2, h2.2, ?_⟩
  intro d c hm
  simp only [c102Isl, List.mem_cons, Op.attach.injEq, reduceCtorEq, List.not_mem_nil, or_false] at hm
  rcases hm with ⟨_, rfl⟩ | ⟨_, rfl⟩ | ⟨_, rfl⟩ <;> rfl

/-! ## Examples -/

/-- Two satellites, three packets of which one exceeds the queue and one goes to nobody. -/
def c102Peers : List Op :=
  [.attach 1 1, .attach 3 1, .send 1 [1] (.mac (Demo.mac 4)) 1, .send 1 [2] (.mac (Demo.mac 4)) 1, .send 1 [3] (.mac (Demo.mac 4)) 1,
   .send 1 [4] (.mac (Demo.mac 4)) 1, .send 3 [5] (.mac (Demo.mac 9)) 1]

def c102Peer (d : DevId) : Mac48 := if d = 1 then Demo.mac 4 else Demo.mac 9

example : Demo.check Demo.env Demo.sys c102Peers (fun s => tally .sent s.log == 5 && tally .macTxDrop s.log == 1 && tally .phyTxDrop s.log == 1
    && waiting 4 s == 2 && inFlight s == 1) = true := by decide +kernel

example : Demo.check Demo.env Demo.sys (c102Peers ++ List.replicate 8 .run) (fun s => s.pending.isEmpty && tally .passedUp s.log == 3
    && accounted s.log == 5) = true := by decide +kernel

example : SendersBelow 4 c102Peers ∧ OnePeer Demo.sys c102Peer c102Peers := by
  refine ⟨?_, ?_, ?_, ?_⟩
  · intro d p dest proto hm
    simp only [c102Peers, List.mem_cons, Op.send.injEq, reduceCtorEq, List.not_mem_nil, or_false, false_or] at hm
    rcases hm with ⟨rfl, _⟩ | ⟨rfl, _⟩ | ⟨rfl, _⟩ | ⟨rfl, _⟩ | ⟨rfl, _⟩ <;> decide
  · intro d p dest proto hm
    simp only [c102Peers, List.mem_cons, Op.send.injEq, reduceCtorEq, List.not_mem_nil, or_false, false_or] at hm
    rcases hm with ⟨rfl, _, rfl, _⟩ | ⟨rfl, _, rfl, _⟩ | ⟨rfl, _, rfl, _⟩ | ⟨rfl, _, rfl, _⟩ | ⟨rfl, _, rfl, _⟩ <;> decide
  · intro d c hm
    simp only [c102Peers, List.mem_cons, Op.attach.injEq, reduceCtorEq, List.not_mem_nil, or_false, false_or] at hm
    rcases hm with ⟨_, rfl⟩ | ⟨_, rfl⟩ <;> rfl
  · intro d a hm
    simp [c102Peers] at hm

end Verif
