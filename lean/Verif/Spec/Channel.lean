import Verif.Spec.Net
/-!
# Specification vocabulary for channels (C15-C24)

Who is attached, told from the observable log only; what it means that a transmission was handed to a
list of receivers; orderly use of a channel.
-/

namespace Verif.Spec

/-- Effect of one log entry on (devices in slot order, devices currently attached) of channel `c`. -/
def rosterStep (c : ChanId) (r : List DevId × List DevId) : Ev → List DevId × List DevId
  | .attachRet d c' _ => if c' = c then (r.1 ++ [d], if d ∈ r.2 then r.2 else r.2 ++ [d]) else r
  | .detachRet c' slot _ =>
    if c' = c then (r.1, match r.1[slot]? with | some d => r.2.filter (fun x => x ≠ d) | none => r.2) else r
  | _ => r

/-- All attachments and detachments of channel `c` so far. -/
def roster (c : ChanId) (log : List (Time × Ev)) : List DevId × List DevId :=
  log.foldl (fun r e => rosterStep c r e.2) ([], [])

/-- The devices in slot order: the device in slot `i` is the one of the `i`-th `Attach`. -/
def slots (c : ChanId) (log : List (Time × Ev)) : List DevId := (roster c log).1

/-- The devices attached and not detached since. -/
def members (c : ChanId) (log : List (Time × Ev)) : List DevId := (roster c log).2

/-- Orderly use of link-layer addresses and device types: a device changes its address or type only
while it is attached to no channel, and no two devices that were ever attached to the same channel
have the same address. -/
def Orderly (s : Sys) : Op → Prop
  | .setAddress d (.mac m) => ∀ c, d ∉ members c s.log ∧
      (d ∈ slots c s.log → ∀ y ∈ slots c s.log, (s.dev y).addr = m → y = d)
  | .setSide d _ => ∀ c, d ∉ members c s.log
  | .attach d c => ∀ y ∈ slots c s.log, (s.dev y).addr = (s.dev d).addr → y = d
  | _ => True

/-- Every operation of a history is orderly in the state it is applied to. -/
def OrderlyRun (E : Env) (s : Sys) (ops : List Op) : Prop :=
  ∀ o1 op o2 s1, ops = o1 ++ op :: o2 → exec E s o1 = .ok s1 → Orderly s1 op

/-- From `s` to `s'`, frame `f` of `src` was handed over channel `c` to exactly the listed receivers
(with delay and power), in this order; nothing else happened. -/
structure Delivered (s s' : Sys) (c : ChanId) (f : Bytes) (src : DevId) (txTime : Time)
    (L : List (DevId × Time × Power)) : Prop where
  log : s'.log = s.log ++ L.map (fun x => (s.now, .txrx c f src x.1 txTime x.2.1))
  pending : s'.pending.Perm (L.map (fun x => ⟨s.now + x.2.1, .receive x.1 f src x.2.2⟩) ++ s.pending)
  order : s.pending.Pairwise (fun a b => a.time ≤ b.time) → s'.pending.Pairwise (fun a b => a.time ≤ b.time)
  dev : s'.dev = s.dev
  chan : s'.chan = s.chan
  now : s'.now = s.now

/-- Delay and power with which a transmission of `src` reaches `dst` now, if it does. -/
def reachDev (E : Env) (s : Sys) (c : ChanId) (src : DevId) (txTime : Time) (dst : DevId) :
    Option (Time × Power) :=
  match (s.dev src).node, (s.dev dst).node with
  | some ns, some nd => reach E s.now c (s.dev src).txPower ns nd txTime
  | _, _ => none

/-- Reachability of one device from another. -/
def Reachable (E : Env) (s : Sys) (c : ChanId) (src dst : DevId) : Prop :=
  (reachDev E s c src 0 dst).isSome = true

instance (E : Env) (s : Sys) (c : ChanId) (src dst : DevId) : Decidable (Reachable E s c src dst) := by
  unfold Reachable; infer_instance

/-- New log entries. -/
def newLog (s s' : Sys) : List (Time × Ev) := s'.log.drop s.log.length

/-- Receivers to which a channel handed a frame, in order. -/
def receivers (log : List (Time × Ev)) : List DevId :=
  proj (fun e => match e with | .txrx _ _ _ d _ _ => some d | _ => none) log

end Verif.Spec
