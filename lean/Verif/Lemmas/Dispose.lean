import Verif.Spec.Dispose
import Verif.Lemmas.Link
/-!
# Lemmas for C88
-/

namespace Verif

open Spec

/-- Dispose of all devices of a set. -/
def Sys.retire (g : DevId → Bool) (s : Sys) : Sys :=
  { s with dev := fun x => if g x then (s.dev x).disposed else s.dev x }

/-- Apply a function to the result of a call. -/
def Outcome.mapOk {α β : Type} (k : α → β) : Outcome α → Outcome β
  | .ok a => .ok (k a)
  | .fail f => .fail f

section
variable (g : DevId → Bool) (s : Sys)

theorem retire_dev {x : DevId} (h : g x = false) : (s.retire g).dev x = s.dev x := by
  simp [Sys.retire, h]

theorem retire_addr (x : DevId) : ((s.retire g).dev x).addr = (s.dev x).addr := by
  unfold Sys.retire; simp only; split <;> rfl

theorem retire_linkUp (x : DevId) : ((s.retire g).dev x).linkUp = (s.dev x).linkUp := by
  unfold Sys.retire; simp only; split <;> rfl

theorem retire_emit (e : Ev) : (s.retire g).emit e = (s.emit e).retire g := rfl
theorem retire_schedule (t : Time) (a : Action) : (s.retire g).schedule t a = (s.schedule t a).retire g := rfl
theorem retire_setChan (c : ChanId) (v : Chan) : (s.retire g).setChan c v = (s.setChan c v).retire g := rfl
theorem retire_chan : (s.retire g).chan = s.chan := rfl

/-- A change of a device commutes with disposal when it concerns members that disposal keeps. -/
theorem retire_setDev (d : DevId) (k : Dev → Dev) (hk : ∀ v, k v.disposed = (k v).disposed) :
    (s.retire g).setDev d (k ((s.retire g).dev d)) = (s.setDev d (k (s.dev d))).retire g := by
  unfold Sys.retire Sys.setDev
  simp only [Sys.mk.injEq, and_true, true_and]
  funext x
  by_cases hx : x = d
  · subst hx
    simp only [if_true]
    split
    · rw [hk]
    · rfl
  · simp only [if_neg hx]

theorem retire_setDev' (d : DevId) (v : Dev) (hd : g d = false) :
    (s.retire g).setDev d v = (s.setDev d v).retire g := by
  unfold Sys.retire Sys.setDev
  simp only [Sys.mk.injEq, and_true, true_and]
  funext x
  by_cases hx : x = d
  · subst hx; simp [hd]
  · simp only [if_neg hx]

end

variable {g : DevId → Bool} {E : Env} {s : Sys}

theorem deliver_retire {c : ChanId} {f : Bytes} {src dst : DevId} {t : Time} (h1 : g src = false) (h2 : g dst = false) :
    deliver (E.without g) (s.retire g) c f src dst t = (deliver E s c f src dst t).mapOk (fun r => (r.1.retire g, r.2)) := by
  unfold deliver
  rw [retire_dev g s h1, retire_dev g s h2]
  cases (s.dev src).node with
  | none => rfl
  | some ns =>
    cases (s.dev dst).node with
    | none => rfl
    | some nd =>
      simp only [Env.without, show (s.retire g).now = s.now from rfl]
      by_cases h : (E.hasMob ns && E.hasMob nd) = true
      · rw [if_pos h, if_pos h]
        cases E.loss c with
        | none => rfl
        | some l =>
          simp only
          by_cases h' : ((some l).isSome && decide (l (s.dev src).txPower ns nd s.now < -900)) = true
          · rw [if_pos h', if_pos h']; rfl
          · rw [if_neg h', if_neg h']; rfl
      · rw [if_neg h, if_neg h]; rfl

theorem deliverAll_retire {c : ChanId} {f : Bytes} {src : DevId} {t : Time} (h1 : g src = false) :
    ∀ {l : List DevId} {s : Sys} {r : Bool}, (∀ d ∈ l, g d = false) →
      deliverAll (E.without g) c f src t l (s.retire g) r =
        (deliverAll E c f src t l s r).mapOk (fun r => (r.1.retire g, r.2))
  | [], _, _, _ => rfl
  | d :: l, s, r, h => by
    simp only [deliverAll]
    rw [deliver_retire h1 (h d (by simp))]
    cases deliver E s c f src d t with
    | fail e => rfl
    | ok x => exact deliverAll_retire h1 (fun d hd => h d (by simp [hd]))

theorem deliverOthers_retire {c : ChanId} {f : Bytes} {src : DevId} {slot : Nat} {t : Time} (h1 : g src = false) :
    ∀ {l : List DevId} {i : Nat} {s : Sys}, (∀ d ∈ l, g d = false) →
      deliverOthers (E.without g) c f src slot t l i (s.retire g) =
        (deliverOthers E c f src slot t l i s).mapOk (Sys.retire g)
  | [], _, _, _ => rfl
  | d :: l, i, s, h => by
    simp only [deliverOthers]
    split
    · exact deliverOthers_retire h1 (fun d hd => h d (by simp [hd]))
    · rw [deliver_retire h1 (h d (by simp))]
      cases deliver E s c f src d t with
      | fail e => rfl
      | ok x => exact deliverOthers_retire h1 (fun d hd => h d (by simp [hd]))

theorem findByAddr_retire {a : Addr} : ∀ {l : List DevId}, findByAddr (s.retire g) a l = findByAddr s a l
  | [] => rfl
  | d :: l => by
    simp only [findByAddr, retire_addr]
    rw [findByAddr_retire]

theorem findByAddr_in {a : Addr} {d : DevId} : ∀ {l : List DevId}, findByAddr s a l = some d → d ∈ l
  | [], h => by cases h
  | x :: l, h => by
    simp only [findByAddr] at h
    split at h
    · injection h with h; subst h; simp
    · simp [findByAddr_in h]

/-- What the channels know of the disposed devices. -/
structure Apart (g : DevId → Bool) (s : Sys) : Prop where
  ground : ∀ c, ∀ p ∈ (s.chan c).gnd, g p.2 = false
  space : ∀ c, ∀ p ∈ (s.chan c).sat, g p.2 = false
  isl : ∀ c, (s.chan c).kind = .isl → ∀ d ∈ (s.chan c).link, g d = false

theorem chanTransmit_retire {c : ChanId} {f : Bytes} {slot : Nat} {dest : Addr} {t : Time} {x : DevId} (ha : Apart g s)
    (hs : (s.chan c).link[slot]? = some x) (hx : g x = false) :
    chanTransmit (E.without g) (s.retire g) c f slot dest t =
      (chanTransmit E s c f slot dest t).mapOk (fun r => (r.1.retire g, r.2)) := by
  unfold chanTransmit
  rw [retire_chan]
  cases hk : (s.chan c).kind with
  | leo =>
    simp only [leoTransmit, retire_chan, hs, retire_addr]
    split
    · rfl
    · split
      · exact deliverAll_retire hx (fun d hd => by
          obtain ⟨p, hp, rfl⟩ := List.mem_map.mp hd; exact ha.space c p hp)
      · split
        · exact deliverAll_retire hx (fun d hd => by
            obtain ⟨p, hp, rfl⟩ := List.mem_map.mp hd; exact ha.ground c p hp)
        · rfl
  | isl =>
    simp only [islTransmit, retire_chan, hs, findByAddr_retire]
    cases hf : findByAddr s dest (s.chan c).link with
    | some d => exact deliver_retire hx (ha.isl c hk d (findByAddr_in hf))
    | none =>
      cases dest with
      | other => rfl
      | mac m =>
        simp only
        split
        · rw [deliverOthers_retire hx (ha.isl c hk)]
          cases deliverOthers E c f x slot t (s.chan c).link 0 s <;> rfl
        · rfl

theorem transmitStart_retire {d : DevId} {f : Bytes} {dest : Addr} (ha : Apart g s) (hd : g d = false)
    (hs : ∀ c, (s.dev d).chan = some c → (s.chan c).link[(s.dev d).chanSlot]? = some d) :
    transmitStart (E.without g) (s.retire g) d f dest = (transmitStart E s d f dest).mapOk (Sys.retire g) := by
  unfold transmitStart
  simp only [retire_dev g s hd]
  split
  · rfl
  · cases hc : (s.dev d).chan with
    | none => rfl
    | some c =>
      simp only
      have key : ∀ (t : Sys) (T : Time), t.chan = s.chan →
          chanTransmit (E.without g) (t.retire g) c f (s.dev d).chanSlot dest T =
            (chanTransmit E t c f (s.dev d).chanSlot dest T).mapOk (fun r => (r.1.retire g, r.2)) := by
        intro t T ht
        exact chanTransmit_retire (x := d) ⟨by rw [ht]; exact ha.ground, by rw [ht]; exact ha.space,
          by rw [ht]; exact ha.isl⟩ (by rw [ht]; exact hs c hc) hd
      rw [retire_setDev' g s d _ hd, retire_emit, retire_schedule, retire_emit, key]
      · simp only [show (E.without g).txTime = E.txTime from rfl]
        cases chanTransmit E _ c f (s.dev d).chanSlot dest (E.txTime (s.dev d).rate f.length) with
        | fail e => rfl
        | ok r => simp only [Outcome.mapOk, Outcome.ok_bind]; split <;> rfl
      · rfl

theorem transmitComplete_retire {d : DevId} {dest : Addr} (ha : Apart g s) (hd : g d = false)
    (hs : ∀ c, (s.dev d).chan = some c → (s.chan c).link[(s.dev d).chanSlot]? = some d) :
    transmitComplete (E.without g) (s.retire g) d dest = (transmitComplete E s d dest).mapOk (Sys.retire g) := by
  unfold transmitComplete
  simp only [retire_dev g s hd]
  split
  · rfl
  · cases hc : (s.dev d).cur with
    | none => rfl
    | some f =>
      simp only
      split
      · rfl
      · cases hq : (s.dev d).queue with
        | nil => simp only; rw [retire_setDev' g s d _ hd]; rfl
        | cons p rest =>
          simp only
          rw [retire_setDev' g s d _ hd, retire_emit, retire_setDev' g _ d _ hd, retire_emit, retire_emit]
          refine transmitStart_retire ⟨ha.ground, ha.space, ha.isl⟩ hd ?_
          simpa [Sys.emit, Sys.setDev] using hs

theorem send_retire {d : DevId} {p : Bytes} {dest : Addr} {proto : UInt16} (ha : Apart g s)
    (hd : g d = true → (s.dev d).linkUp = false)
    (hs : ∀ c, (s.dev d).chan = some c → (s.chan c).link[(s.dev d).chanSlot]? = some d) :
    send (E.without g) (s.retire g) d p dest proto = (send E s d p dest proto).mapOk (Sys.retire g) := by
  unfold send
  simp only [retire_linkUp]
  cases hg : g d with
  | true => rw [hd hg]; rfl
  | false =>
    simp only [retire_dev g s hg]
    split
    · rfl
    · cases dest with
      | other => rfl
      | mac m =>
        simp only
        split
        · rfl
        · split
          · split
            · cases hq : (s.dev d).queue ++ [addHeader (E.without g).fcs p (s.dev d).addr m proto] with
              | nil => simp only [Env.without] at hq; simp [hq, Outcome.mapOk]
              | cons q rest =>
                simp only [Env.without] at hq
                simp only [Env.without, hq]
                rw [retire_emit, retire_setDev' g _ d _ hg, retire_emit, retire_emit]
                have := transmitStart_retire (E := E) (f := q) (dest := .mac m) (g := g) (d := d)
                  (s := (((s.emit (.macTx d (addHeader E.fcs p (s.dev d).addr m proto))).setDev d
                    { s.dev d with queue := rest }).emit (.promiscSniffer d q)).emit (.sniffer d q))
                  ⟨ha.ground, ha.space, ha.isl⟩ hg (by simpa [Sys.emit, Sys.setDev] using hs)
                unfold Env.without at this
                rw [this]
                cases transmitStart E _ d q (.mac m) <;> rfl
            · rw [retire_emit, retire_setDev' g _ d _ hg]; rfl
          · rfl

theorem receive_retire {d : DevId} {f : Bytes} {src : DevId} {rx : Power}
    (hd : g d = true → ∀ t n k, E.corrupt d t n k = false) :
    receive (E.without g) (s.retire g) d f src rx = (receive E s d f src rx).mapOk (Sys.retire g) := by
  have hc : ∀ t n k, (E.without g).corrupt d t n k = E.corrupt d t n k := by
    intro t n k
    simp only [Env.without]
    split
    · rename_i h; exact (hd h t n k).symm
    · rfl
  have hv : ∃ v w, ((s.retire g).emit (.recvCall d f src rx)).dev d = v ∧ (s.emit (.recvCall d f src rx)).dev d = w ∧
      v.addr = w.addr ∧ v.rxThreshold = w.rxThreshold ∧ v.promiscCb = w.promiscCb ∧ v.rxCb = w.rxCb ∧
      ∀ r, calcRxPower v r = calcRxPower w r := by
    refine ⟨_, _, rfl, rfl, ?_⟩
    simp only [Sys.emit, Sys.retire]
    split
    · exact ⟨rfl, rfl, rfl, rfl, fun _ => rfl⟩
    · exact ⟨rfl, rfl, rfl, rfl, fun _ => rfl⟩
  obtain ⟨v, w, h1, h2, h3, h4, h5, h6, h7⟩ := hv
  unfold receive
  simp only [h1, h2, h3, h4, h5, h6, h7, hc]
  split
  · rfl
  · split
    · rfl
    · split
      · rename_i h
        rw [if_pos (by exact h)]; rfl
      · rename_i h
        rw [if_neg (by exact h)]
        simp only [Env.without]
        cases decode E.fcs f with
        | fail e => rfl
        | ok r =>
          cases r with
          | badFcs rest => rfl
          | good p proto a b =>
            simp only [Outcome.ok_bind]
            cases w.promiscCb <;> cases w.rxCb <;> simp only [if_true, if_false, Bool.false_eq_true] <;> split <;> rfl

theorem attach_retire {d : DevId} {c : ChanId} (hd : g d = false) :
    attach (s.retire g) d c = (attach s d c).mapOk (Sys.retire g) := by
  unfold attach
  simp only [retire_dev g s hd, retire_chan, retire_setChan, retire_setDev' g _ d _ hd, retire_emit]
  cases (s.chan c).kind with
  | isl => rfl
  | leo =>
    simp only
    split
    · rfl
    · cases (s.dev d).side <;> rfl

theorem baseDetach_retire {c : ChanId} {slot : Nat} :
    baseDetach (s.retire g) c slot = ((baseDetach s c slot).1.retire g, (baseDetach s c slot).2) := by
  unfold baseDetach
  rw [retire_chan]
  cases (s.chan c).link[slot]? with
  | none => rfl
  | some d =>
    simp only [retire_linkUp]
    split
    · rfl
    · rw [retire_setDev g s d (fun v => { v with linkUp := false }) (fun _ => rfl)]; rfl

theorem detach_retire {c : ChanId} {slot : Nat} :
    detach (s.retire g) c slot = (detach s c slot).mapOk (Sys.retire g) := by
  unfold detach
  rw [retire_chan]
  cases (s.chan c).kind with
  | isl => simp only [baseDetach_retire]; rfl
  | leo =>
    simp only
    cases (s.chan c).link[slot]? with
    | none => rfl
    | some d => simp only [retire_addr, retire_setChan, baseDetach_retire]; rfl

/-- Every operation gives the same result whether or not the devices have been disposed of. -/
theorem step_retire {o : Op} (ha : Apart g s) (hd : ∀ d, g d = true → (s.dev d).linkUp = false)
    (hs : ∀ d c, (s.dev d).chan = some c → (s.chan c).link[(s.dev d).chanSlot]? = some d)
    (hi : ∀ p ∈ s.pending, ∀ d dest, p.act = .txComplete d dest → g d = false)
    (hr : ∀ p ∈ s.pending, ∀ d f src rx, p.act = .receive d f src rx → g d = true → ∀ t n k, E.corrupt d t n k = false)
    (ho : ∀ d c, o = .attach d c → g d = false) :
    step (E.without g) (s.retire g) o = (step E s o).mapOk (Sys.retire g) := by
  cases o with
  | send d p dest proto => exact send_retire ha (hd d) (hs d)
  | sendFrom d p a b proto => rfl
  | attach d c => exact attach_retire (ho d c rfl)
  | detach c slot => exact detach_retire
  | setAddress d a =>
    cases a with
    | other => rfl
    | mac m => exact congrArg Outcome.ok (retire_setDev g s d (fun v => { v with addr := m }) (fun _ => rfl))
  | setSide d side => exact congrArg Outcome.ok (retire_setDev g s d (fun v => { v with side := side }) (fun _ => rfl))
  | setRate d r => exact congrArg Outcome.ok (retire_setDev g s d (fun v => { v with rate := r }) (fun _ => rfl))
  | setGap d r => exact congrArg Outcome.ok (retire_setDev g s d (fun v => { v with gap := r }) (fun _ => rfl))
  | setMtu d r => exact congrArg Outcome.ok (retire_setDev g s d (fun v => { v with mtu := r }) (fun _ => rfl))
  | setTxPower d r => exact congrArg Outcome.ok (retire_setDev g s d (fun v => { v with txPower := r }) (fun _ => rfl))
  | setRxThreshold d r => exact congrArg Outcome.ok (retire_setDev g s d (fun v => { v with rxThreshold := r }) (fun _ => rfl))
  | setRxGain d r => exact congrArg Outcome.ok (retire_setDev g s d (fun v => { v with rxGain := r }) (fun _ => rfl))
  | setRxLoss d r => exact congrArg Outcome.ok (retire_setDev g s d (fun v => { v with rxLoss := r }) (fun _ => rfl))
  | setPromisc d b => exact congrArg Outcome.ok (retire_setDev g s d (fun v => { v with promiscCb := b }) (fun _ => rfl))
  | run =>
    simp only [step, run]
    have hp : (s.retire g).pending = s.pending := rfl
    rw [hp]
    cases h : s.pending with
    | nil => rfl
    | cons p ps =>
      have hb : ({ s.retire g with now := p.time, pending := ps } : Sys) =
        Sys.retire g { s with now := p.time, pending := ps } := rfl
      simp only [hb]
      cases hact : p.act with
      | txComplete d dest =>
        exact transmitComplete_retire ⟨ha.ground, ha.space, ha.isl⟩ (hi p (by simp [h]) d dest hact) (hs d)
      | receive d f src rx => exact receive_retire (hr p (by simp [h]) d f src rx hact)
  | wait dt =>
    simp only [step]
    have hp : (s.retire g).pending = s.pending := rfl
    have hn : (s.retire g).now = s.now := rfl
    rw [hp, hn]
    split <;> rfl

end Verif
