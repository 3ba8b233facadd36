import Verif.Spec.Channel
import Verif.Model.Queues
/-!
# Vocabulary for queue objects: what goes into a queue and what comes out of it
-/

namespace Verif.Spec

/-- Frame of a `Send` that returned true on a device that points at queue `q`. -/
def acceptedIntoEv (S : QSys) (q : QueueId) : Ev → Option Bytes
  | .sendRet d _ _ _ true f => if S.own d = some q then some f else none
  | _ => none

/-- Frame put on the air by a device that points at queue `q`. -/
def begunFromEv (S : QSys) (q : QueueId) : Ev → Option Bytes
  | .phyTxBegin d f => if S.own d = some q then some f else none
  | _ => none

/-- What went into queue `q` in one operation: frames accepted by devices pointing at it, or the frame the user added if there
was room. -/
def wentIn (S S' : QSys) (o : QOp) (q : QueueId) : List Bytes :=
  match o with
  | .op _ => proj (acceptedIntoEv S q) (newLog S.sys S'.sys)
  | .put r f => if r = q ∧ (S.store q).length < S.cap q then [f] else []
  | _ => []

/-- What came out of queue `q` in one operation: frames put on the air by devices pointing at it, or the frame the user
removed. -/
def cameOut (S S' : QSys) (o : QOp) (q : QueueId) : List Bytes :=
  match o with
  | .op _ => proj (begunFromEv S q) (newLog S.sys S'.sys)
  | .take r => if r = q then (S.store q).head?.toList else []
  | _ => []

/-- A history with the states it passes through. -/
inductive Passes (E : Env) : QSys → List (QSys × QOp × QSys) → QSys → Prop where
  | nil (S : QSys) : Passes E S [] S
  | cons {S S' S'' : QSys} {o : QOp} {l : List (QSys × QOp × QSys)} (h : stepQ E S o = .ok S')
      (t : Passes E S' l S'') : Passes E S ((S, o, S') :: l) S''

/-- All that went into `q`. -/
def allIn (q : QueueId) (l : List (QSys × QOp × QSys)) : List Bytes := l.flatMap fun x => wentIn x.1 x.2.2 x.2.1 q
/-- All that came out of `q`. -/
def allOut (q : QueueId) (l : List (QSys × QOp × QSys)) : List Bytes := l.flatMap fun x => cameOut x.1 x.2.2 x.2.1 q

/-- The user adds to `q`, removes from it or gives it to a device. -/
def handles (q : QueueId) : QOp → Prop
  | .put r _ => r = q
  | .take r => r = q
  | .setQueue _ r => r = some q
  | .op _ => False

/-- The queue a device was given last; `q` if it was given none. -/
def lastGiven (d : DevId) (q : Option QueueId) : List QOp → Option QueueId
  | [] => q
  | .setQueue x r :: ops => lastGiven d (if x = d then r else q) ops
  | _ :: ops => lastGiven d q ops

/-- No two devices have the same queue. -/
def OneEach (S : QSys) : Prop := ∀ d d' q, S.own d = some q → S.own d' = some q → d = d'

/-- Use of queues that leaves no idle transmitter with frames waiting: a queue is given to a device that no other device has, and
that is empty unless the device is transmitting; and frames are added only to queues of transmitting devices or of none. -/
def Considerate (S : QSys) : QOp → Prop
  | .op _ => True
  | .take _ => True
  | .put q _ => ∀ d, S.own d = some q → (S.sys.dev d).busy = true
  | .setQueue _ none => True
  | .setQueue d (some q) => (∀ x, x ≠ d → S.own x ≠ some q) ∧ (S.store q = [] ∨ (S.sys.dev d).busy = true)

/-- Nobody sends on `d`. -/
def NoSend (d : DevId) (ops : List QOp) : Prop := ∀ p dest proto, .op (.send d p dest proto) ∉ ops

end Verif.Spec
