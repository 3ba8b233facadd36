import Verif.Spec.Net
/-!
# Specification vocabulary for the transmission schedule of a device (C09, C74, C75)
-/

namespace Verif.Spec

/-- The device is transmitting: its last transmission has begun and not ended. -/
def Transmitting (d : DevId) (log : List (Time × Ev)) : Prop := ∃ f, (phases d log).getLast? = some (.start f)

/-- Accepted frames of a device with the times of their `Send`. -/
def acceptedT (d : DevId) (log : List (Time × Ev)) : List (Time × Bytes) := projT (acceptedEv d) log

/-- Frames put on the air by a device with the times at which their transmission began. -/
def begunT (d : DevId) (log : List (Time × Ev)) : List (Time × Bytes) := projT (begunEv d) log

/-- The departures of a single server that serves its customers in the order of their arrival, at once if it is free, and
needs `work f` for customer `f`: each customer begins at its arrival or when the one before is done, whichever is
later.  `free` is when the server becomes free. -/
def fifo (work : Bytes → Time) : Time → List (Time × Bytes) → List (Time × Bytes)
  | _, [] => []
  | free, (t, f) :: l => (max t free, f) :: fifo work (max t free + work f) l

/-- Total work. -/
def load (work : Bytes → Time) (l : List Bytes) : Time := (l.map work).sum

/-- A program that does not change rate and interframe gap of the device. -/
def SteadyRate (d : DevId) (ops : List Op) : Prop := (∀ r, Op.setRate d r ∉ ops) ∧ ∀ g, Op.setGap d g ∉ ops

/-- Time a device is occupied by a frame, for its rate and interframe gap. -/
def occupation (E : Env) (v : Dev) (f : Bytes) : Time := E.txTime v.rate f.length + v.gap

/-- The last `n` elements. -/
def lastN {α : Type} (n : Nat) (l : List α) : List α := l.drop (l.length - n)

end Verif.Spec
