import Verif.Model.Dispose
/-!
# Vocabulary of C88: devices that can be spared
-/

namespace Verif.Spec

/-- The operations other than disposals. -/
def kept : List DOp → List Op
  | [] => []
  | .dispose _ :: ops => kept ops
  | .op o :: ops => o :: kept ops

/-- Nothing refers to the device any more: its link is down, it is not in the index of a ground/space channel and not in the
list of an inter-satellite channel, it is not transmitting, and no frame that its error model could corrupt is on the
way to it. -/
structure Unused (E : Env) (s : Sys) (d : DevId) : Prop where
  down : (s.dev d).linkUp = false
  ground : ∀ c a, (a, d) ∉ (s.chan c).gnd
  space : ∀ c a, (a, d) ∉ (s.chan c).sat
  isl : ∀ c, (s.chan c).kind = .isl → d ∉ (s.chan c).link
  idle : ∀ p ∈ s.pending, ∀ dest, p.act ≠ .txComplete d dest
  clear : ∀ p ∈ s.pending, ∀ f src rx, p.act = .receive d f src rx → ∀ t n g, E.corrupt d t n g = false

/-- A history in which devices are disposed of only when nothing refers to them, and are not attached afterwards. -/
def Tidy (E : Env) (s : DSys) (ops : List DOp) : Prop :=
  ∀ o1 d o2, ops = o1 ++ .dispose d :: o2 →
    (∀ s1, execD E s o1 = .ok s1 → Unused E s1.sys d) ∧ ∀ c, DOp.op (.attach d c) ∉ o2

/-- Two systems that differ at most in the given devices, and there in nothing a user can see from outside the device's own
transmitter: same clock, events, log, channels and link state. -/
structure SameBut (gone : DevId → Bool) (s t : Sys) : Prop where
  dev : ∀ d, gone d = false → s.dev d = t.dev d
  link : ∀ d, (s.dev d).linkUp = (t.dev d).linkUp
  chan : s.chan = t.chan
  now : s.now = t.now
  pending : s.pending = t.pending
  log : s.log = t.log

end Verif.Spec
