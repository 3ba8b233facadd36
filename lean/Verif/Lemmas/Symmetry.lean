import Verif.Spec.Symmetry
import Verif.Lemmas.Dispose
import Verif.Props.Propagation
/-!
# Changes of names and of the origin of time
-/

namespace Verif
open Real
namespace Spec
namespace Recast
variable (R : Recast)

theorem emit (s : Sys) (e : Ev) : (R.onSys s).emit (R.onEv e) = R.onSys (s.emit e) := by
  simp [Sys.emit, onSys]

theorem setDev (s : Sys) (d : DevId) (v : Dev) : (R.onSys s).setDev (R.dev d) (R.onDev v) = R.onSys (s.setDev d v) := by
  simp only [Sys.setDev, onSys, Sys.mk.injEq, and_true]
  funext x
  by_cases h : x = R.dev d
  · subst h; simp
  · have : R.dev.symm x ≠ d := fun e => h (by rw [← e]; simp)
    simp [h, this]

theorem setChan (s : Sys) (c : ChanId) (v : Chan) : (R.onSys s).setChan (R.chan c) (R.onChan v) = R.onSys (s.setChan c v) := by
  simp only [Sys.setChan, onSys, Sys.mk.injEq, and_true, true_and]
  funext x
  by_cases h : x = R.chan c
  · subst h; simp
  · have : R.chan.symm x ≠ c := fun e => h (by rw [← e]; simp)
    simp [h, this]

theorem dev_eq (s : Sys) (d : DevId) : (R.onSys s).dev (R.dev d) = R.onDev (s.dev d) := by simp [onSys]

theorem chan_eq (s : Sys) (c : ChanId) : (R.onSys s).chan (R.chan c) = R.onChan (s.chan c) := by simp [onSys]

theorem now_eq (s : Sys) : (R.onSys s).now = s.now + R.dt := rfl

theorem insert (p : Pending) (l : List Pending) :
    insertPending ⟨p.time + R.dt, R.onAct p.act⟩ (l.map fun p => ⟨p.time + R.dt, R.onAct p.act⟩) =
      (insertPending p l).map fun p => ⟨p.time + R.dt, R.onAct p.act⟩ := by
  induction l with
  | nil => rfl
  | cons q l ih =>
    simp only [List.map_cons, insertPending, Nat.add_lt_add_iff_right]
    split
    · rfl
    · rw [ih]; rfl

theorem schedule (s : Sys) (d : Time) (a : Action) : (R.onSys s).schedule d (R.onAct a) = R.onSys (s.schedule d a) := by
  simp only [Sys.schedule, onSys, Sys.mk.injEq, true_and, and_true]
  rw [← R.insert]
  congr 2
  simp only
  omega

@[simp] theorem onSys_emit (s : Sys) (e : Ev) : R.onSys (s.emit e) = (R.onSys s).emit (R.onEv e) := (R.emit s e).symm

@[simp] theorem onSys_setDev (s : Sys) (d : DevId) (v : Dev) : R.onSys (s.setDev d v) = (R.onSys s).setDev (R.dev d) (R.onDev v) :=
  (R.setDev s d v).symm

@[simp] theorem onSys_setChan (s : Sys) (c : ChanId) (v : Chan) : R.onSys (s.setChan c v) = (R.onSys s).setChan (R.chan c) (R.onChan v) :=
  (R.setChan s c v).symm

@[simp] theorem onSys_schedule (s : Sys) (d : Time) (a : Action) : R.onSys (s.schedule d a) = (R.onSys s).schedule d (R.onAct a) :=
  (R.schedule s d a).symm

theorem deliver {E : Env} (s : Sys) (c : ChanId) (f : Bytes) (src dst : DevId) (tx : Time) :
    Verif.deliver E (R.onSys s) (R.chan c) f (R.dev src) (R.dev dst) tx =
      (Verif.deliver (R.envSeen E) s c f src dst tx).mapOk fun r => (R.onSys r.1, r.2) := by
  have k1 : ∀ n, (R.envSeen E).hasMob n = E.hasMob (R.node n) := fun _ => rfl
  have k2 : ∀ c, (R.envSeen E).loss c = (E.loss (R.chan c)).map fun l tx a b t => l tx (R.node a) (R.node b) (t + R.dt) := fun _ => rfl
  have k3 : ∀ c, (R.envSeen E).delay c = (E.delay (R.chan c)).map fun l a b t => l (R.node a) (R.node b) (t + R.dt) := fun _ => rfl
  generalize R.envSeen E = E' at *
  unfold Verif.deliver
  rw [dev_eq, dev_eq]
  have n1 : (R.onDev (s.dev src)).node = (s.dev src).node.map R.node := rfl
  have n2 : (R.onDev (s.dev dst)).node = (s.dev dst).node.map R.node := rfl
  have n3 : (R.onDev (s.dev src)).txPower = (s.dev src).txPower := rfl
  rw [n1, n2, n3]
  cases (s.dev src).node with
  | none => rfl
  | some ns =>
    cases (s.dev dst).node with
    | none => rfl
    | some nd =>
      simp only [Option.map_some, now_eq]
      have hb : E.hasMob (R.node ns) = E'.hasMob ns := (k1 ns).symm
      have hc : E.hasMob (R.node nd) = E'.hasMob nd := (k1 nd).symm
      obtain hl | ⟨l, hl⟩ : E.loss (R.chan c) = none ∨ ∃ l, E.loss (R.chan c) = some l := by cases E.loss (R.chan c) <;> simp
      all_goals obtain hd | ⟨g, hd⟩ : E.delay (R.chan c) = none ∨ ∃ l, E.delay (R.chan c) = some l := by cases E.delay (R.chan c) <;> simp
      all_goals
        have hl' := k2 c
        have hd' := k3 c
        rw [hl] at hl'
        rw [hd] at hd'
        simp only [Option.map_some, Option.map_none] at hl' hd'
        simp only [hb, hc, hl, hd, hl', hd']
      all_goals
        cases E'.hasMob ns <;> cases E'.hasMob nd <;>
          first
            | (simp [Outcome.mapOk, onEv, onAct]; done)
            | (by_cases hq : l (s.dev src).txPower (R.node ns) (R.node nd) (s.now + R.dt) < -900 <;>
                simp [hq, Outcome.mapOk, onEv, onAct])

theorem deliverAll {E : Env} (c : ChanId) (f : Bytes) (src : DevId) (tx : Time) (l : List DevId) : ∀ (s : Sys) (r : Bool),
    Verif.deliverAll E (R.chan c) f (R.dev src) tx (l.map R.dev) (R.onSys s) r =
      (Verif.deliverAll (R.envSeen E) c f src tx l s r).mapOk fun r => (R.onSys r.1, r.2) := by
  induction l with
  | nil => intro s r; rfl
  | cons d l ih =>
    intro s r
    simp only [List.map_cons, Verif.deliverAll, R.deliver]
    cases Verif.deliver (R.envSeen E) s c f src d tx with
    | fail e => rfl
    | ok x => exact ih _ _

theorem deliverOthers {E : Env} (c : ChanId) (f : Bytes) (src : DevId) (slot : Nat) (tx : Time) (l : List DevId) : ∀ (i : Nat) (s : Sys),
    Verif.deliverOthers E (R.chan c) f (R.dev src) slot tx (l.map R.dev) i (R.onSys s) =
      (Verif.deliverOthers (R.envSeen E) c f src slot tx l i s).mapOk R.onSys := by
  induction l with
  | nil => intro i s; rfl
  | cons d l ih =>
    intro i s
    simp only [List.map_cons, Verif.deliverOthers, R.deliver]
    split
    · exact ih _ _
    · cases Verif.deliver (R.envSeen E) s c f src d tx with
      | fail e => rfl
      | ok x => exact ih _ _

theorem mapHas (a : Mac48) (m : List (Mac48 × DevId)) : Verif.mapHas a (m.map fun x => (x.1, R.dev x.2)) = Verif.mapHas a m := by
  simp [Verif.mapHas, Function.comp_def]

theorem mapErase (a : Mac48) (m : List (Mac48 × DevId)) :
    Verif.mapErase a (m.map fun x => (x.1, R.dev x.2)) = (Verif.mapErase a m).map fun x => (x.1, R.dev x.2) := by
  simp [Verif.mapErase, List.filter_map, Function.comp_def]

theorem mapInsert (a : Mac48) (d : DevId) (m : List (Mac48 × DevId)) :
    Verif.mapInsert a (R.dev d) (m.map fun x => (x.1, R.dev x.2)) = (Verif.mapInsert a d m).map fun x => (x.1, R.dev x.2) := by
  induction m with
  | nil => rfl
  | cons b m ih =>
    obtain ⟨b, e⟩ := b
    simp only [List.map_cons, Verif.mapInsert]
    split
    · rfl
    · split
      · rfl
      · rw [ih]; rfl

theorem findByAddr (s : Sys) (a : Addr) (l : List DevId) :
    Verif.findByAddr (R.onSys s) a (l.map R.dev) = (Verif.findByAddr s a l).map R.dev := by
  induction l with
  | nil => rfl
  | cons d l ih =>
    simp only [List.map_cons, Verif.findByAddr, dev_eq]
    have : (R.onDev (s.dev d)).addr = (s.dev d).addr := rfl
    rw [this]
    split
    · rfl
    · exact ih

theorem leoTransmit {E : Env} (s : Sys) (c : ChanId) (f : Bytes) (slot : Nat) (dest : Addr) (tx : Time) :
    Verif.leoTransmit E (R.onSys s) (R.chan c) f slot dest tx =
      (Verif.leoTransmit (R.envSeen E) s c f slot dest tx).mapOk fun r => (R.onSys r.1, r.2) := by
  unfold Verif.leoTransmit
  rw [chan_eq]
  have e1 : (R.onChan (s.chan c)).link[slot]? = ((s.chan c).link[slot]?).map R.dev := by simp [onChan]
  rw [e1]
  cases (s.chan c).link[slot]? with
  | none => rfl
  | some src =>
    simp only [Option.map_some, dev_eq]
    have e2 : Verif.mapHas (R.onDev (s.dev src)).addr (R.onChan (s.chan c)).gnd = Verif.mapHas (s.dev src).addr (s.chan c).gnd := R.mapHas _ _
    have e3 : Verif.mapHas (R.onDev (s.dev src)).addr (R.onChan (s.chan c)).sat = Verif.mapHas (s.dev src).addr (s.chan c).sat := R.mapHas _ _
    have e4 : (R.onChan (s.chan c)).gnd.map (·.2) = ((s.chan c).gnd.map (·.2)).map R.dev := by simp [onChan, Function.comp_def]
    have e5 : (R.onChan (s.chan c)).sat.map (·.2) = ((s.chan c).sat.map (·.2)).map R.dev := by simp [onChan, Function.comp_def]
    rw [e2, e3, e4, e5, R.deliverAll, R.deliverAll]
    split
    · rfl
    · split
      · rfl
      · split <;> rfl

theorem islTransmit {E : Env} (s : Sys) (c : ChanId) (f : Bytes) (slot : Nat) (dest : Addr) (tx : Time) :
    Verif.islTransmit E (R.onSys s) (R.chan c) f slot dest tx =
      (Verif.islTransmit (R.envSeen E) s c f slot dest tx).mapOk fun r => (R.onSys r.1, r.2) := by
  unfold Verif.islTransmit
  rw [chan_eq]
  have e1 : (R.onChan (s.chan c)).link[slot]? = ((s.chan c).link[slot]?).map R.dev := by simp [onChan]
  have e2 : Verif.findByAddr (R.onSys s) dest (R.onChan (s.chan c)).link = (Verif.findByAddr s dest (s.chan c).link).map R.dev := R.findByAddr _ _ _
  rw [e1, e2]
  cases (s.chan c).link[slot]? with
  | none => rfl
  | some src =>
    simp only [Option.map_some]
    cases Verif.findByAddr s dest (s.chan c).link with
    | some dst => simp only [Option.map_some]; exact R.deliver _ _ _ _ _ _
    | none =>
      simp only [Option.map_none]
      cases dest with
      | other => rfl
      | mac m =>
        simp only
        split
        · have : (R.onChan (s.chan c)).link = (s.chan c).link.map R.dev := rfl
          rw [this, R.deliverOthers]
          cases Verif.deliverOthers (R.envSeen E) c f src slot tx (s.chan c).link 0 s <;> rfl
        · rfl

theorem chanTransmit {E : Env} (s : Sys) (c : ChanId) (f : Bytes) (slot : Nat) (dest : Addr) (tx : Time) :
    Verif.chanTransmit E (R.onSys s) (R.chan c) f slot dest tx =
      (Verif.chanTransmit (R.envSeen E) s c f slot dest tx).mapOk fun r => (R.onSys r.1, r.2) := by
  unfold Verif.chanTransmit
  rw [chan_eq]
  have : (R.onChan (s.chan c)).kind = (s.chan c).kind := rfl
  rw [this]
  cases (s.chan c).kind with
  | leo => exact R.leoTransmit _ _ _ _ _ _
  | isl => exact R.islTransmit _ _ _ _ _ _

theorem transmitStart {E : Env} (s : Sys) (d : DevId) (f : Bytes) (dest : Addr) :
    Verif.transmitStart E (R.onSys s) (R.dev d) f dest = (Verif.transmitStart (R.envSeen E) s d f dest).mapOk R.onSys := by
  unfold Verif.transmitStart
  simp only [dev_eq]
  have e1 : (R.onDev (s.dev d)).busy = (s.dev d).busy := rfl
  have e2 : (R.onDev (s.dev d)).rate = (s.dev d).rate := rfl
  have e3 : (R.onDev (s.dev d)).gap = (s.dev d).gap := rfl
  have e4 : (R.onDev (s.dev d)).chan = (s.dev d).chan.map R.chan := rfl
  have e5 : (R.onDev (s.dev d)).chanSlot = (s.dev d).chanSlot := rfl
  have e6 : (R.envSeen E).txTime = E.txTime := rfl
  rw [e1, e2, e3, e4, e5, e6]
  split
  · rfl
  · cases (s.dev d).chan with
    | none => rfl
    | some c =>
      simp only [Option.map_some]
      have e : ((((R.onSys s).setDev (R.dev d) { R.onDev (s.dev d) with busy := true, cur := some f, chan := some (R.chan c) }).emit (.phyTxBegin (R.dev d) f)).schedule
          (E.txTime (s.dev d).rate f.length + (s.dev d).gap) (.txComplete (R.dev d) dest)).emit (.onAir (R.dev d) f dest) =
          R.onSys ((((s.setDev d { s.dev d with busy := true, cur := some f, chan := some c }).emit (.phyTxBegin d f)).schedule
          (E.txTime (s.dev d).rate f.length + (s.dev d).gap) (.txComplete d dest)).emit (.onAir d f dest)) := by
        simp [onEv, onAct, onDev]
      have key := R.chanTransmit (E := E) ((((s.setDev d { s.dev d with busy := true, cur := some f, chan := some c }).emit (.phyTxBegin d f)).schedule
          (E.txTime (s.dev d).rate f.length + (s.dev d).gap) (.txComplete d dest)).emit (.onAir d f dest)) c f (s.dev d).chanSlot dest
          (E.txTime (s.dev d).rate f.length)
      rw [← e] at key
      refine (congrArg (· >>= _) key).trans ?_
      simp only
      cases Verif.chanTransmit (R.envSeen E) _ c f (s.dev d).chanSlot dest (E.txTime (s.dev d).rate f.length) with
      | fail e => rfl
      | ok x =>
        obtain ⟨s3, ok⟩ := x
        cases ok
        · show Outcome.ok ((R.onSys s3).emit _) = Outcome.ok (R.onSys (s3.emit _))
          simp [onEv]
        · rfl

theorem transmitComplete {E : Env} (s : Sys) (d : DevId) (dest : Addr) :
    Verif.transmitComplete E (R.onSys s) (R.dev d) dest = (Verif.transmitComplete (R.envSeen E) s d dest).mapOk R.onSys := by
  unfold Verif.transmitComplete
  simp only [dev_eq]
  have e1 : (R.onDev (s.dev d)).busy = (s.dev d).busy := rfl
  have e2 : (R.onDev (s.dev d)).cur = (s.dev d).cur := rfl
  have e3 : (R.onDev (s.dev d)).hasQueue = (s.dev d).hasQueue := rfl
  have e4 : (R.onDev (s.dev d)).queue = (s.dev d).queue := rfl
  rw [e1, e2, e3, e4]
  split
  · rfl
  · cases (s.dev d).cur with
    | none => rfl
    | some f =>
      simp only
      split
      · rfl
      · cases (s.dev d).queue with
        | nil => simp [Outcome.mapOk, onEv, onDev]
        | cons p rest =>
          simp only
          rw [← R.transmitStart]
          simp [onEv, onDev]

theorem send {E : Env} (s : Sys) (d : DevId) (p : Bytes) (dest : Addr) (proto : UInt16) :
    Verif.send E (R.onSys s) (R.dev d) p dest proto = (Verif.send (R.envSeen E) s d p dest proto).mapOk R.onSys := by
  unfold Verif.send
  simp only [dev_eq]
  have e1 : (R.onDev (s.dev d)).busy = (s.dev d).busy := rfl
  have e2 : (R.onDev (s.dev d)).linkUp = (s.dev d).linkUp := rfl
  have e3 : (R.onDev (s.dev d)).hasQueue = (s.dev d).hasQueue := rfl
  have e4 : (R.onDev (s.dev d)).queue = (s.dev d).queue := rfl
  have e5 : (R.onDev (s.dev d)).cap = (s.dev d).cap := rfl
  have e6 : (R.onDev (s.dev d)).addr = (s.dev d).addr := rfl
  have e7 : (R.envSeen E).fcs = E.fcs := rfl
  rw [e1, e2, e3, e4, e5, e6, e7]
  split
  · simp [Outcome.mapOk, onEv]
  · cases dest with
    | other => rfl
    | mac m =>
      simp only
      split
      · rfl
      · split
        · split
          · cases (s.dev d).queue ++ [addHeader E.fcs p (s.dev d).addr m proto] with
            | nil => rfl
            | cons g rest =>
              simp only
              have e : ((((R.onSys s).emit (.macTx (R.dev d) (addHeader E.fcs p (s.dev d).addr m proto))).setDev (R.dev d)
                  { R.onDev (s.dev d) with queue := rest }).emit (.promiscSniffer (R.dev d) g)).emit (.sniffer (R.dev d) g) =
                  R.onSys ((((s.emit (.macTx d (addHeader E.fcs p (s.dev d).addr m proto))).setDev d
                  { s.dev d with queue := rest }).emit (.promiscSniffer d g)).emit (.sniffer d g)) := by
                simp [onEv, onDev]
              erw [e]
              rw [R.transmitStart]
              cases Verif.transmitStart (R.envSeen E) _ d g (.mac m) with
              | fail e => rfl
              | ok x =>
                show Outcome.ok ((R.onSys x).emit _) = Outcome.ok (R.onSys (x.emit _))
                simp [onEv]
          · simp [Outcome.mapOk, onEv, onDev]
        · simp [Outcome.mapOk, onEv]

theorem receive {E : Env} (s : Sys) (d : DevId) (f : Bytes) (src : DevId) (rx : Power) :
    Verif.receive E (R.onSys s) (R.dev d) f (R.dev src) rx = (Verif.receive (R.envSeen E) s d f src rx).mapOk R.onSys := by
  unfold Verif.receive
  have e0 : ((R.onSys s).emit (.recvCall (R.dev d) f (R.dev src) rx)) = R.onSys (s.emit (.recvCall d f src rx)) := by simp [onEv]
  rw [e0]
  generalize s.emit (.recvCall d f src rx) = u
  simp only [dev_eq]
  have e1 : calcRxPower (R.onDev (u.dev d)) rx = calcRxPower (u.dev d) rx := rfl
  have e2 : (R.onDev (u.dev d)).rxThreshold = (u.dev d).rxThreshold := rfl
  have e3 : (R.onDev (u.dev d)).promiscCb = (u.dev d).promiscCb := rfl
  have e4 : (R.onDev (u.dev d)).addr = (u.dev d).addr := rfl
  have e5 : (R.onDev (u.dev d)).rxCb = (u.dev d).rxCb := rfl
  have e6 : (R.envSeen E).fcs = E.fcs := rfl
  have e7 : E.corrupt (R.dev d) (R.onSys u).now (R.onSys u).log.length f = (R.envSeen E).corrupt d u.now u.log.length f := by
    simp [onSys, envSeen]
  rw [e1, e2, e3, e4, e5, e6, e7]
  simp only [EmbeddingLike.apply_eq_iff_eq]
  split
  · simp [Outcome.mapOk, onEv]
  · split
    · simp [Outcome.mapOk, onEv]
    · split
      · simp [Outcome.mapOk, onEv]
      · cases decode E.fcs f with
        | fail e => rfl
        | ok x =>
          cases x with
          | badFcs rest => simp [Outcome.mapOk, onEv]
          | good p proto srcA dstA =>
            simp only [Outcome.ok_bind]
            cases (u.dev d).promiscCb <;> cases (u.dev d).rxCb <;> by_cases ht : packetType dstA (u.dev d).addr = .otherHost <;>
              simp [ht, Outcome.mapOk, onEv]

theorem attach (s : Sys) (d : DevId) (c : ChanId) :
    Verif.attach (R.onSys s) (R.dev d) (R.chan c) = (Verif.attach s d c).mapOk R.onSys := by
  unfold Verif.attach
  simp only [dev_eq, chan_eq]
  have e1 : (R.onChan (s.chan c)).kind = (s.chan c).kind := rfl
  have e2 : (R.onDev (s.dev d)).leo = (s.dev d).leo := rfl
  have e3 : (R.onDev (s.dev d)).side = (s.dev d).side := rfl
  rw [e1, e2, e3]
  cases (s.chan c).kind with
  | isl => simp [Outcome.mapOk, onEv, onDev, onChan]
  | leo =>
    simp only
    split
    · rfl
    · cases (s.dev d).side <;> simp [Outcome.mapOk, onEv, onDev, onChan, R.mapInsert]

theorem baseDetach (s : Sys) (c : ChanId) (slot : Nat) :
    Verif.baseDetach (R.onSys s) (R.chan c) slot = (R.onSys (Verif.baseDetach s c slot).1, (Verif.baseDetach s c slot).2) := by
  unfold Verif.baseDetach
  rw [chan_eq]
  have e1 : (R.onChan (s.chan c)).link[slot]? = ((s.chan c).link[slot]?).map R.dev := by simp [onChan]
  rw [e1]
  cases (s.chan c).link[slot]? with
  | none => rfl
  | some d =>
    simp only [Option.map_some, dev_eq]
    have e2 : (R.onDev (s.dev d)).linkUp = (s.dev d).linkUp := rfl
    rw [e2]
    split <;> simp [onEv, onDev]

theorem detach (s : Sys) (c : ChanId) (slot : Nat) :
    Verif.detach (R.onSys s) (R.chan c) slot = (Verif.detach s c slot).mapOk R.onSys := by
  unfold Verif.detach
  simp only [chan_eq]
  have e1 : (R.onChan (s.chan c)).kind = (s.chan c).kind := rfl
  have e2 : (R.onChan (s.chan c)).link[slot]? = ((s.chan c).link[slot]?).map R.dev := by simp [onChan]
  rw [e1, e2]
  cases (s.chan c).kind with
  | isl => simp [R.baseDetach, Outcome.mapOk, onEv]
  | leo =>
    cases (s.chan c).link[slot]? with
    | none => rfl
    | some d =>
      simp only [Option.map_some, dev_eq]
      have e : (R.onSys s).setChan (R.chan c) { R.onChan (s.chan c) with
          kind := .leo, gnd := Verif.mapErase (R.onDev (s.dev d)).addr (R.onChan (s.chan c)).gnd,
          sat := Verif.mapErase (R.onDev (s.dev d)).addr (R.onChan (s.chan c)).sat } =
          R.onSys (s.setChan c { s.chan c with
          kind := .leo, gnd := Verif.mapErase (s.dev d).addr (s.chan c).gnd, sat := Verif.mapErase (s.dev d).addr (s.chan c).sat }) := by
        simp [onChan, onDev, R.mapErase]
      have key := R.baseDetach (s.setChan c { s.chan c with
          kind := .leo, gnd := Verif.mapErase (s.dev d).addr (s.chan c).gnd, sat := Verif.mapErase (s.dev d).addr (s.chan c).sat }) c slot
      rw [← e] at key
      refine (congrArg (fun x : Sys × Bool => Outcome.ok (x.1.emit (.detachRet (R.chan c) slot x.2))) key).trans ?_
      simp [Outcome.mapOk, onEv]

theorem run {E : Env} (s : Sys) : Verif.run E (R.onSys s) = (Verif.run (R.envSeen E) s).mapOk R.onSys := by
  unfold Verif.run
  cases h : s.pending with
  | nil => simp [onSys, h, Outcome.mapOk]
  | cons p ps =>
    have e : (R.onSys s).pending = ⟨p.time + R.dt, R.onAct p.act⟩ :: ps.map fun p => ⟨p.time + R.dt, R.onAct p.act⟩ := by simp [onSys, h]
    rw [e]
    have e' : { R.onSys s with now := p.time + R.dt, pending := ps.map fun p => (⟨p.time + R.dt, R.onAct p.act⟩ : Pending) } =
        R.onSys { s with now := p.time, pending := ps } := rfl
    simp only [e']
    cases p.act with
    | txComplete d dest => exact R.transmitComplete _ _ _
    | receive dst f src rx => exact R.receive _ _ _ _ _

theorem step {E : Env} (s : Sys) (op : Op) : Verif.step E (R.onSys s) (R.onOp op) = (Verif.step (R.envSeen E) s op).mapOk R.onSys := by
  cases op with
  | send d p dest proto => exact R.send _ _ _ _ _
  | attach d c => exact R.attach _ _ _
  | detach c slot => exact R.detach _ _ _
  | run => exact R.run _
  | wait dt =>
    simp only [onOp, Verif.step]
    have e : (R.onSys s).pending.all (fun p => decide ((R.onSys s).now + dt ≤ p.time)) = s.pending.all (fun p => decide (s.now + dt ≤ p.time)) := by
      simp only [onSys, List.all_map, Function.comp_def]
      congr 1
      funext p
      congr 1
      simp only [eq_iff_iff]
      omega
    rw [e]
    split
    · show Outcome.ok _ = Outcome.ok _
      congr 1
      simp only [onSys, Sys.mk.injEq, true_and, and_true]
      omega
    · rfl
  | setAddress d a =>
    cases a with
    | other => rfl
    | mac m => simp [onOp, Verif.step, Outcome.mapOk, dev_eq, onDev]
  | _ => simp [onOp, Verif.step, Outcome.mapOk, dev_eq, onDev, onEv]

theorem exec {E : Env} (ops : List Op) : ∀ s : Sys,
    Verif.exec E (R.onSys s) (ops.map R.onOp) = (Verif.exec (R.envSeen E) s ops).mapOk R.onSys := by
  induction ops with
  | nil => intro s; rfl
  | cons op ops ih =>
    intro s
    simp only [List.map_cons, Verif.exec, R.step]
    cases Verif.step (R.envSeen E) s op with
    | fail e => rfl
    | ok s' => exact ih s'

end Recast

theorem Frame.dot {T : Vec → Vec} (h : Frame T) (a b : Vec) : Verif.dot (T a) (T b) = Verif.dot a b := h a b

theorem Frame.len {T : Vec → Vec} (h : Frame T) (a : Vec) : (T a).len = a.len := by
  unfold Vec.len
  rw [h a a]

theorem Frame.dot_sub {T : Vec → Vec} (h : Frame T) (a b : Vec) : Verif.dot (T a) (T b - T a) = Verif.dot a (b - a) := by
  have h1 := h.dot a a
  have h2 := h.dot a b
  simp only [Verif.dot, sub_x, sub_y, sub_z] at *
  linarith

theorem Frame.dist {T : Vec → Vec} (h : Frame T) (a b : Vec) : (T b - T a).len = (b - a).len := by
  unfold Vec.len
  congr 1
  have h1 := h.dot a a
  have h2 := h.dot a b
  have h3 := h.dot b b
  simp only [Verif.dot, sub_x, sub_y, sub_z] at *
  linarith

theorem Frame.los {T : Vec → Vec} (h : Frame T) (a b : Vec) : islLos (T a) (T b) = islLos a b := by
  by_cases hl : a.len > b.len
  · rw [los_form (Or.inl ⟨hl, rfl, rfl⟩), los_form (Or.inl ⟨by rw [h.len, h.len]; exact hl, rfl, rfl⟩), h.dist, h.dot_sub, h.len]
  · rw [los_form (Or.inr ⟨hl, rfl, rfl⟩), los_form (Or.inr ⟨by rw [h.len, h.len]; exact hl, rfl, rfl⟩), h.dist, h.dot_sub, h.len]

theorem Frame.loss {T : Vec → Vec} (h : Frame T) (m : Option LeoBudget) (tx : Power) (a b : Vec) :
    Sky.loss m tx (T a) (T b) = Sky.loss m tx a b := by
  unfold Sky.loss
  cases m with
  | none => simp only [h.los]
  | some m =>
    simp only [h.len, h.dist]
    have : (LeoLoss.create m.elev m.atm m.fspl m.margin).cutoff (if a.len > b.len then T a else T b) =
        (LeoLoss.create m.elev m.atm m.fspl m.margin).cutoff (if a.len > b.len then a else b) := by
      apply cutoff_len
      split
      · exact h.len _
      · exact h.len _
    rw [this]

theorem turn_frame (α : ℝ) : Frame (turn α) := by
  intro a b
  have := Real.sin_sq_add_cos_sq α
  simp only [turn]
  linear_combination (a.x * b.x + a.y * b.y) * this

theorem turn_dot (α : ℝ) (a b : Vec) : Verif.dot (turn α a) (turn α b) = Verif.dot a b := turn_frame α a b

theorem turn_cross (α : ℝ) (a b : Vec) : cross (turn α a) (turn α b) = turn α (cross a b) := by
  have := Real.sin_sq_add_cos_sq α
  simp only [turn, cross, Vec.mk.injEq]
  refine ⟨by ring, by ring, ?_⟩
  linear_combination (a.x * b.y - a.y * b.x) * this

theorem turn_smul (α l : ℝ) (a : Vec) : smul l (turn α a) = turn α (smul l a) := by
  simp only [turn, smul, Vec.mk.injEq]
  exact ⟨by ring, by ring, trivial⟩

theorem turn_add (α : ℝ) (a b : Vec) : turn α a + turn α b = turn α (a + b) := by
  ext
  all_goals simp only [turn, add_x, add_y, add_z]
  all_goals ring

theorem turn_rotatePlane (α : ℝ) (n : Vec) (a : ℝ) (x : Vec) :
    rotatePlane (turn α n) a (turn α x) = turn α (rotatePlane n a x) := by
  unfold rotatePlane
  rw [turn_dot, turn_cross, turn_cross, turn_smul, turn_smul, turn_smul, turn_add, turn_add]

theorem position_of {o o' : Orbit} {t t' : Time} {α : ℝ} (h1 : o'.height = o.height) (h2 : o'.incl = o.incl)
    (h3 : o'.latitude t' = o.latitude t + α) (h4 : o'.progress t' = o.progress t) : o'.position t' = turn α (o.position t) := by
  have hn : o'.norm t' = turn α (o.norm t) := by
    unfold Orbit.norm turn
    rw [h2, h3, cos_add, sin_add]
    simp only [Vec.mk.injEq, and_true]
    exact ⟨by ring, by ring⟩
  unfold Orbit.position
  simp only
  rw [← turn_rotatePlane, hn, h4, ← turn_smul, h1, h2, h3]
  congr 2
  unfold turn
  rw [cos_add, sin_add]
  simp only [Vec.mk.injEq, and_true]
  exact ⟨by ring, by ring⟩

/-- Full turns do not change a position. -/
theorem position_turns {o o' : Orbit} {t : Time} {k : ℕ} (h1 : o'.height = o.height) (h2 : o'.incl = o.incl) (h3 : o'.off = o.off)
    (h4 : o'.lon = o.lon + k * (2 * Real.pi)) : o'.position t = o.position t := by
  have hl : o'.latitude t = o.latitude t + k * (2 * Real.pi) := by unfold Orbit.latitude; rw [h4]; ring
  have hp : o'.progress t = o.progress t := by unfold Orbit.progress Orbit.speed; rw [h1, h2, h3]
  have hn : o'.norm t = o.norm t := by unfold Orbit.norm; rw [hl, h2, cos_add_nat_mul_two_pi, sin_add_nat_mul_two_pi]
  unfold Orbit.position
  simp only
  rw [hn, hp, h1, h2, hl, cos_add_nat_mul_two_pi, sin_add_nat_mul_two_pi]

end Spec
end Verif
