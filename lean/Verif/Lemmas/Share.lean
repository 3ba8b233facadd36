import Verif.Spec.Share
import Verif.Lemmas.Net
/-!
# Packet objects and packet values
-/

namespace Verif

open Spec

/-- A state with queues and current packets replaced. -/
def over (q : DevId → List Bytes) (c : DevId → Option Bytes) (s : Sys) : Sys :=
  { s with dev := fun d => { s.dev d with queue := q d, cur := c d } }

theorem contents_eq (h : PSys) : contents h = over (fun d => (h.q d).map h.heap) (fun d => (h.cur d).map h.heap) h.sys := rfl

/-- Apply a function to a successful outcome. -/
def mapO {α β : Type} (g : α → β) : Outcome α → Outcome β
  | .ok a => .ok (g a)
  | .fail e => .fail e

theorem mapO_bind {α β γ : Type} (g : β → γ) (x : Outcome α) (k : α → Outcome β) :
    mapO g (x >>= k) = x >>= fun a => mapO g (k a) := by
  cases x <;> rfl

theorem bind_mapO {α β γ : Type} (g : α → β) (x : Outcome α) (k : β → Outcome γ) :
    (mapO g x >>= k) = x >>= fun a => k (g a) := by
  cases x <;> rfl

theorem contentsO_eq (x : Outcome PSys) : contentsO x = mapO contents x := by cases x <;> rfl

variable (q : DevId → List Bytes) (cu : DevId → Option Bytes)

/-- `over` on a state paired with a result. -/
def overP (x : Sys × Bool) : Sys × Bool := (over q cu x.1, x.2)

theorem over_deliver (E : Env) (s : Sys) (c : ChanId) (f : Bytes) (src dst : DevId) (t : Time) :
    deliver E (over q cu s) c f src dst t = mapO (overP q cu) (deliver E s c f src dst t) := by
  rw [deliver_eq, deliver_eq]
  have h1 : recvOf E (over q cu s) c src t dst = recvOf E s c src t dst := rfl
  have h2 : ((over q cu s).dev src).node = (s.dev src).node := rfl
  have h3 : ((over q cu s).dev dst).node = (s.dev dst).node := rfl
  rw [h1, h2, h3]
  split <;> rfl

theorem over_deliverAll (E : Env) (c : ChanId) (f : Bytes) (src : DevId) (t : Time) (l : List DevId) (s : Sys) (r : Bool) :
    deliverAll E c f src t l (over q cu s) r = mapO (overP q cu) (deliverAll E c f src t l s r) := by
  induction l generalizing s r with
  | nil => rfl
  | cons d l ih =>
    simp only [deliverAll]
    rw [over_deliver, bind_mapO, mapO_bind]
    congr 1
    funext x
    exact ih _ _

theorem over_deliverOthers (E : Env) (c : ChanId) (f : Bytes) (src : DevId) (slot : Nat) (t : Time) (l : List DevId) (i : Nat) (s : Sys) :
    deliverOthers E c f src slot t l i (over q cu s) = mapO (over q cu) (deliverOthers E c f src slot t l i s) := by
  induction l generalizing s i with
  | nil => rfl
  | cons d l ih =>
    simp only [deliverOthers]
    split
    · exact ih _ _
    · rw [over_deliver, bind_mapO, mapO_bind]
      congr 1
      funext x
      exact ih _ _

theorem over_findByAddr (s : Sys) (a : Addr) (l : List DevId) : findByAddr (over q cu s) a l = findByAddr s a l := by
  induction l with
  | nil => rfl
  | cons d l ih =>
    simp only [findByAddr, ih]
    rfl

theorem over_chanTransmit (E : Env) (s : Sys) (c : ChanId) (f : Bytes) (slot : Nat) (dest : Addr) (t : Time) :
    chanTransmit E (over q cu s) c f slot dest t = mapO (overP q cu) (chanTransmit E s c f slot dest t) := by
  unfold chanTransmit
  have hc : (over q cu s).chan = s.chan := rfl
  rw [hc]
  cases (s.chan c).kind with
  | leo =>
    simp only
    unfold leoTransmit
    rw [hc]
    cases (s.chan c).link[slot]? with
    | none => rfl
    | some src =>
      simp only
      have ha : ((over q cu s).dev src).addr = (s.dev src).addr := rfl
      rw [ha]
      split
      · rfl
      · split
        · exact over_deliverAll q cu ..
        · split
          · exact over_deliverAll q cu ..
          · rfl
  | isl =>
    simp only
    unfold islTransmit
    rw [hc]
    cases (s.chan c).link[slot]? with
    | none => rfl
    | some src =>
      simp only
      rw [over_findByAddr]
      cases findByAddr s dest (s.chan c).link with
      | some dst => exact over_deliver q cu ..
      | none =>
        simp only
        cases dest with
        | other => rfl
        | mac m =>
          simp only
          split
          · rw [over_deliverOthers, bind_mapO, mapO_bind]; rfl
          · rfl

/-- Replacing one device, whose queue and current packet are given. -/
theorem over_setDev (s : Sys) (d : DevId) (v : Dev) :
    (over q cu s).setDev d v = over (put q d v.queue) (put cu d v.cur) (s.setDev d v) := by
  simp only [over, Sys.setDev, put]
  congr 1
  funext x
  by_cases hx : x = d
  · subst hx; simp
  · simp [hx]

theorem over_setDev_eq (s : Sys) (d : DevId) (v w : Dev) (h : v = { w with queue := v.queue, cur := v.cur }) :
    over q cu (s.setDev d v) = over q cu (s.setDev d w) := by
  simp only [over, Sys.setDev]
  congr 1
  funext x
  by_cases hx : x = d
  · subst hx; rw [h]; simp
  · simp [hx]

theorem put_map {α β : Type} (g : α → β) (k : Nat → List α) (d : Nat) (l : List α) :
    (fun x => (put k d l x).map g) = put (fun x => (k x).map g) d (l.map g) := by
  funext x; unfold put; split <;> rfl

theorem put_mapO {α β : Type} (g : α → β) (k : Nat → Option α) (d : Nat) (l : Option α) :
    (fun x => (put k d l x).map g) = put (fun x => (k x).map g) d (l.map g) := by
  funext x; unfold put; split <;> rfl

theorem put_put {α : Type} (g : Nat → α) (d : Nat) (a b : α) : put (put g d a) d b = put g d b := by
  funext x; unfold put; split <;> rfl

theorem put_self {α : Type} (g : Nat → α) (d : Nat) : put g d (g d) = g := by
  funext x; unfold put; split
  · rename_i h; rw [h]
  · rfl

theorem contents_def (g : PSys) :
    contents g = over (fun d => (g.q d).map g.heap) (fun d => (g.cur d).map g.heap) g.sys := rfl

theorem startP_value (E : Env) (h : PSys) (d : DevId) (i : PktId) (dest : Addr) :
    contentsO (startP E h d i dest) = transmitStart E (contents h) d (h.heap i) dest := by
  rw [contentsO_eq]
  obtain ⟨X, hX⟩ : ∃ X, X = ((((contents h).setDev d { (contents h).dev d with busy := true, cur := some (h.heap i) }).emit
            (.phyTxBegin d (h.heap i))).schedule (E.txTime (h.sys.dev d).rate (h.heap i).length + (h.sys.dev d).gap)
            (.txComplete d dest)).emit (.onAir d (h.heap i) dest) := ⟨_, rfl⟩
  obtain ⟨Y, hY⟩ : ∃ Y, Y = (((h.sys.setDev d { h.sys.dev d with busy := true }).emit (.phyTxBegin d (h.heap i))).schedule
              (E.txTime (h.sys.dev d).rate (h.heap i).length + (h.sys.dev d).gap) (.txComplete d dest)).emit
              (.onAir d (h.heap i) dest) := ⟨_, rfl⟩
  have hs : X = over (fun d => (h.q d).map h.heap) (put (fun d => (h.cur d).map h.heap) d (some (h.heap i))) Y := by
    rw [hX, hY]
    simp only [contents, over, Sys.emit, Sys.schedule, Sys.setDev, put]
    congr 1
    funext x
    by_cases hx : x = d
    · subst hx; simp
    · simp [hx]
  have hT : transmitStart E (contents h) d (h.heap i) dest = if (h.sys.dev d).busy = true then .fail .txNotReady else
      match (h.sys.dev d).chan with
      | none => .fail .nullChannel
      | some c => (chanTransmit E X c (h.heap i) (h.sys.dev d).chanSlot dest (E.txTime (h.sys.dev d).rate (h.heap i).length)) >>=
          fun x => if x.2 = true then .ok x.1 else .ok (x.1.emit (.phyTxDrop d (h.heap i))) := by
    rw [hX]; rfl
  have hP : startP E h d i dest = if (h.sys.dev d).busy = true then .fail .txNotReady else
      match (h.sys.dev d).chan with
      | none => .fail .nullChannel
      | some c => (chanTransmit E Y c (h.heap i) (h.sys.dev d).chanSlot dest (E.txTime (h.sys.dev d).rate (h.heap i).length)) >>=
          fun x => .ok { h with sys := if x.2 = true then x.1 else x.1.emit (.phyTxDrop d (h.heap i)), cur := put h.cur d (some i) } := by
    rw [hY]; rfl
  rw [hT, hP, hs]
  split
  · rfl
  · cases (h.sys.dev d).chan with
    | none => rfl
    | some c =>
      simp only
      rw [mapO_bind, over_chanTransmit, bind_mapO]
      congr 1
      funext x
      obtain ⟨s3, ok⟩ := x
      cases ok with
      | true => simp only [overP, mapO, if_true, contents_def, put_mapO, Option.map_some]
      | false =>
        simp only [overP, mapO, Bool.false_eq_true, if_false, contents_def, put_mapO, Option.map_some]
        rfl

theorem startP_heap {E : Env} {h h' : PSys} {d : DevId} {i : PktId} {dest : Addr} (hr : startP E h d i dest = .ok h') :
    h'.heap = h.heap := by
  unfold startP at hr
  simp only at hr
  split at hr
  · cases hr
  · split at hr
    · cases hr
    · rw [Outcome.bind_eq_ok] at hr
      obtain ⟨x, _, hr⟩ := hr
      injection hr with hr
      subst hr
      rfl

theorem completeP_value (E : Env) (h : PSys) (d : DevId) (dest : Addr) :
    contentsO (completeP E h d dest) = transmitComplete E (contents h) d dest := by
  unfold completeP transmitComplete
  simp only
  have hb : ((contents h).dev d).busy = (h.sys.dev d).busy := rfl
  have hc : ((contents h).dev d).cur = (h.cur d).map h.heap := rfl
  have hq : ((contents h).dev d).hasQueue = (h.sys.dev d).hasQueue := rfl
  have hqu : ((contents h).dev d).queue = (h.q d).map h.heap := rfl
  rw [hb, hc, hq, hqu]
  split
  · rfl
  · cases hcur : h.cur d with
    | none => rfl
    | some i =>
      simp only [Option.map_some]
      split
      · rfl
      · cases hqd : h.q d with
        | nil =>
          simp only [List.map_nil, contentsO]
          congr 1
          simp only [contents, Sys.emit, Sys.setDev, put]
          congr 1
          funext x
          by_cases hx : x = d
          · subst hx; simp [hqd]
          · simp [hx]
        | cons j rest =>
          simp only [List.map_cons]
          rw [startP_value]
          congr 1
          simp only [contents, Sys.emit, Sys.setDev, put]
          congr 1
          funext x
          by_cases hx : x = d
          · subst hx; simp
          · simp [hx]

theorem put_heap_list {heap : PktId → Bytes} {i : PktId} {f : Bytes} {l : List PktId} (h : i ∉ l) :
    l.map (put heap i f) = l.map heap := by
  refine List.map_congr_left fun x hx => ?_
  unfold put
  rw [if_neg]
  rintro rfl
  exact h hx

theorem put_heap_opt {heap : PktId → Bytes} {i : PktId} {f : Bytes} {o : Option PktId} (h : o ≠ some i) :
    o.map (put heap i f) = o.map heap := by
  cases o with
  | none => rfl
  | some x =>
    have : x ≠ i := fun e => h (by rw [e])
    simp [put, this]

/-- Changing an object that no device holds changes nothing. -/
theorem contents_put {h : PSys} {i : PktId} (hi : ¬ Held h i) (f : Bytes) : contents { h with heap := put h.heap i f } = contents h := by
  have h1 : ∀ d, i ∉ h.q d := fun d hd => hi ⟨d, Or.inl hd⟩
  have h2 : ∀ d, h.cur d ≠ some i := fun d hd => hi ⟨d, Or.inr hd⟩
  simp only [contents, put_heap_list (h1 _), put_heap_opt (h2 _)]

theorem sendP_value (E : Env) (h : PSys) (d : DevId) (i : PktId) (dest : Addr) (proto : UInt16) (hi : ¬ Held h i) :
    contentsO (sendP E h d i dest proto) = send E (contents h) d (h.heap i) dest proto := by
  have h1 : ∀ d, i ∉ h.q d := fun d hd => hi ⟨d, Or.inl hd⟩
  have h2 : ∀ d, h.cur d ≠ some i := fun d hd => hi ⟨d, Or.inr hd⟩
  unfold sendP send
  simp only
  have hl : ((contents h).dev d).linkUp = (h.sys.dev d).linkUp := rfl
  have hb : ((contents h).dev d).busy = (h.sys.dev d).busy := rfl
  have hq : ((contents h).dev d).hasQueue = (h.sys.dev d).hasQueue := rfl
  have hqu : ((contents h).dev d).queue = (h.q d).map h.heap := rfl
  have hcap : ((contents h).dev d).cap = (h.sys.dev d).cap := rfl
  have ha : ((contents h).dev d).addr = (h.sys.dev d).addr := rfl
  rw [hl, hq, hqu, hcap, ha, hb, List.length_map]
  split
  · rfl
  · cases dest with
    | other => rfl
    | mac m =>
      simp only
      generalize hf : addHeader E.fcs (h.heap i) (h.sys.dev d).addr m proto = f
      split
      · rfl
      · split
        · split
          · obtain ⟨j, rest, hj⟩ : ∃ j rest, h.q d ++ [i] = j :: rest := by
              cases h.q d <;> simp
            have hmap : (h.q d).map h.heap ++ [f] = put h.heap i f j :: rest.map (put h.heap i f) := by
              have := congrArg (List.map (put h.heap i f)) hj
              rw [List.map_append, put_heap_list (h1 d)] at this
              simpa [put] using this
            rw [hj, hmap]
            simp only
            rw [contentsO_eq, mapO_bind]
            generalize hg : put h.heap i f j = g
            have key := startP_value E (PSys.mk (((h.sys.emit (.macTx d f)).emit (.promiscSniffer d g)).emit (.sniffer d g)) (put h.heap i f) (put h.q d rest) h.cur) d j (.mac m)
            have hcon : contents (PSys.mk (((h.sys.emit (.macTx d f)).emit (.promiscSniffer d g)).emit (.sniffer d g)) (put h.heap i f) (put h.q d rest) h.cur) =
                ((((contents h).emit (.macTx d f)).setDev d { (contents h).dev d with queue := rest.map (put h.heap i f) }).emit
                  (.promiscSniffer d g)).emit (.sniffer d g) := by
              simp only [contents, Sys.emit, Sys.setDev, put_heap_opt (h2 _)]
              congr 1
              funext x
              by_cases hx : x = d
              · subst hx; simp [put]
              · have : put h.q d rest x = h.q x := by simp [put, hx]
                simp [hx, this, put_heap_list (h1 _)]
            rw [hcon] at key
            simp only [hg, hl, hb, hq, hcap, ha] at key
            rw [← key, contentsO_eq, bind_mapO]
            cases hst : startP E (PSys.mk (((h.sys.emit (.macTx d f)).emit (.promiscSniffer d g)).emit (.sniffer d g)) (put h.heap i f) (put h.q d rest) h.cur) d j (.mac m) with
            | fail e => rfl
            | ok h3 =>
              have hh := startP_heap hst
              simp only [Outcome.ok_bind, mapO]
              have hfi : h3.heap i = f := by rw [hh]; simp [put]
              rw [hfi]
              rfl
          · simp only [contentsO]
            congr 1
            simp only [contents, Sys.emit, Sys.setDev, put_heap_opt (h2 _)]
            congr 1
            funext x
            by_cases hx : x = d
            · subst hx
              simp [put]
              intro y hy he
              exact (h1 x (he ▸ hy)).elim
            · have : ∀ l, put h.q d l x = h.q x := by intro l; simp [put, hx]
              simp [hx, this, put_heap_list (h1 _)]
        · simp only [contentsO]
          congr 1
          simp only [contents, Sys.emit, put_heap_opt (h2 _), put_heap_list (h1 _)]

theorem over_receive (E : Env) (s : Sys) (d : DevId) (f : Bytes) (src : DevId) (rx : Power) :
    receive E (over q cu s) d f src rx = mapO (over q cu) (receive E s d f src rx) := by
  unfold receive
  simp only
  split
  · rfl
  · have h1 : calcRxPower (((over q cu s).emit (.recvCall d f src rx)).dev d) rx = calcRxPower ((s.emit (.recvCall d f src rx)).dev d) rx := rfl
    have h2 : (((over q cu s).emit (.recvCall d f src rx)).dev d).rxThreshold = ((s.emit (.recvCall d f src rx)).dev d).rxThreshold := rfl
    rw [h1, h2]
    split
    · rfl
    · have h3 : E.corrupt d ((over q cu s).emit (.recvCall d f src rx)).now ((over q cu s).emit (.recvCall d f src rx)).log.length f =
        E.corrupt d (s.emit (.recvCall d f src rx)).now (s.emit (.recvCall d f src rx)).log.length f := rfl
      rw [h3]
      split
      · rfl
      · rw [mapO_bind]
        congr 1
        funext r
        cases r with
        | badFcs rest => rfl
        | good p proto srcA dstA =>
          have h4 : (((over q cu s).emit (.recvCall d f src rx)).dev d).addr = ((s.emit (.recvCall d f src rx)).dev d).addr := rfl
          have h5 : (((over q cu s).emit (.recvCall d f src rx)).dev d).promiscCb = ((s.emit (.recvCall d f src rx)).dev d).promiscCb := rfl
          have h6 : (((over q cu s).emit (.recvCall d f src rx)).dev d).rxCb = ((s.emit (.recvCall d f src rx)).dev d).rxCb := rfl
          simp only [h4, h5, h6]
          cases ((s.emit (.recvCall d f src rx)).dev d).promiscCb <;> cases ((s.emit (.recvCall d f src rx)).dev d).rxCb <;>
            split <;> rfl

/-- A change of a device that does not look at its queue and current packet. -/
theorem over_setDev_map (s : Sys) (d : DevId) (g : Dev → Dev)
    (hg : ∀ v q c, g { v with queue := q, cur := c } = { g v with queue := q, cur := c }) :
    (over q cu s).setDev d (g ((over q cu s).dev d)) = over q cu (s.setDev d (g (s.dev d))) := by
  unfold over Sys.setDev
  simp only
  congr 1
  funext x
  by_cases hx : x = d
  · subst hx
    simp only [if_true]
    exact hg _ _ _
  · simp [hx]

theorem over_attach (s : Sys) (d : DevId) (c : ChanId) : attach (over q cu s) d c = mapO (over q cu) (attach s d c) := by
  have up (ch' : Chan) (n : Nat) :
      (((over q cu s).setChan c ch').setDev d { (over q cu s).dev d with chan := some c, chanSlot := n, linkUp := true }) =
      over q cu ((s.setChan c ch').setDev d { s.dev d with chan := some c, chanSlot := n, linkUp := true }) :=
    over_setDev_map q cu (s.setChan c ch') d (fun v => { v with chan := some c, chanSlot := n, linkUp := true }) (fun _ _ _ => rfl)
  have e1 (t : Sys) (e : Ev) : (over q cu t).emit e = over q cu (t.emit e) := rfl
  have h1 : (over q cu s).chan c = s.chan c := rfl
  have h2 : ((over q cu s).dev d).leo = (s.dev d).leo := rfl
  have h3 : ((over q cu s).dev d).side = (s.dev d).side := rfl
  have h4 : ((over q cu s).dev d).addr = (s.dev d).addr := rfl
  unfold attach
  simp only [h1, h2, h3, h4]
  split
  · simp only [mapO]; rw [← e1, ← e1, ← up]; rfl
  · split
    · rfl
    · split
      · simp only [mapO]; rw [← e1, ← e1, ← up]; rfl
      · simp only [mapO]; rw [← e1, ← e1, ← up]; rfl

theorem over_baseDetach (s : Sys) (c : ChanId) (slot : Nat) :
    baseDetach (over q cu s) c slot = overP q cu (baseDetach s c slot) := by
  unfold baseDetach
  have h1 : (over q cu s).chan c = s.chan c := rfl
  rw [h1]
  cases (s.chan c).link[slot]? with
  | none => rfl
  | some d =>
    have h2 : ((over q cu s).dev d).linkUp = (s.dev d).linkUp := rfl
    simp only [h2]
    split
    · rfl
    · rw [over_setDev_map q cu s d (fun v => { v with linkUp := false }) (fun _ _ _ => rfl)]
      rfl

theorem over_detach (s : Sys) (c : ChanId) (slot : Nat) : detach (over q cu s) c slot = mapO (over q cu) (detach s c slot) := by
  unfold detach
  have h1 : (over q cu s).chan c = s.chan c := rfl
  rw [h1]
  split
  · rw [over_baseDetach]; rfl
  · cases (s.chan c).link[slot]? with
    | none => rfl
    | some d =>
      have h2 : ((over q cu s).dev d).addr = (s.dev d).addr := rfl
      simp only [h2]
      have h3 (ch : Chan) : (over q cu s).setChan c ch = over q cu (s.setChan c ch) := rfl
      rw [h3, over_baseDetach]
      rfl

theorem over_step (E : Env) (s : Sys) (op : Op) (h1 : op ≠ .run) (h2 : ∀ d p dest proto, op ≠ .send d p dest proto) :
    step E (over q cu s) op = mapO (over q cu) (step E s op) := by
  cases op with
  | run => exact (h1 rfl).elim
  | send d p dest proto => exact (h2 _ _ _ _ rfl).elim
  | sendFrom => rfl
  | attach d c => exact over_attach q cu s d c
  | detach c slot => exact over_detach q cu s c slot
  | setAddress d a =>
    cases a with
    | other => rfl
    | mac m => exact congrArg Outcome.ok (over_setDev_map q cu s d (fun v => { v with addr := m }) (fun _ _ _ => rfl))
  | setSide d x => exact congrArg Outcome.ok (over_setDev_map q cu s d (fun v => { v with side := x }) (fun _ _ _ => rfl))
  | setRate d x => exact congrArg Outcome.ok (over_setDev_map q cu s d (fun v => { v with rate := x }) (fun _ _ _ => rfl))
  | setGap d x => exact congrArg Outcome.ok (over_setDev_map q cu s d (fun v => { v with gap := x }) (fun _ _ _ => rfl))
  | setMtu d x => exact congrArg Outcome.ok (over_setDev_map q cu s d (fun v => { v with mtu := x }) (fun _ _ _ => rfl))
  | setTxPower d x => exact congrArg Outcome.ok (over_setDev_map q cu s d (fun v => { v with txPower := x }) (fun _ _ _ => rfl))
  | setRxThreshold d x => exact congrArg Outcome.ok (over_setDev_map q cu s d (fun v => { v with rxThreshold := x }) (fun _ _ _ => rfl))
  | setRxGain d x => exact congrArg Outcome.ok (over_setDev_map q cu s d (fun v => { v with rxGain := x }) (fun _ _ _ => rfl))
  | setRxLoss d x => exact congrArg Outcome.ok (over_setDev_map q cu s d (fun v => { v with rxLoss := x }) (fun _ _ _ => rfl))
  | setPromisc d x => exact congrArg Outcome.ok (over_setDev_map q cu s d (fun v => { v with promiscCb := x }) (fun _ _ _ => rfl))
  | wait dt =>
    have h3 : (over q cu s).pending = s.pending := rfl
    have h4 : (over q cu s).now = s.now := rfl
    simp only [step, h3, h4]
    split <;> rfl

theorem runP_value (E : Env) (h : PSys) : contentsO (runP E h) = run E (contents h) := by
  have h1 : (contents h).pending = h.sys.pending := rfl
  unfold runP run
  rw [h1]
  cases hp : h.sys.pending with
  | nil => rfl
  | cons p ps =>
    simp only
    cases hact : p.act with
    | txComplete d dest => exact completeP_value E _ d dest
    | receive dst f src rx =>
      rw [contentsO_eq, mapO_bind]
      have := over_receive (fun d => (h.q d).map h.heap) (fun d => (h.cur d).map h.heap) E { h.sys with now := p.time, pending := ps } dst f src rx
      refine Eq.trans ?_ this.symm
      cases receive E { h.sys with now := p.time, pending := ps } dst f src rx <;> rfl

/-- One operation that leaves held packet objects alone does on packet objects what it does on packet values. -/
theorem stepP_value (E : Env) (h : PSys) (op : POp) (hu : Unshared h op) :
    contentsO (stepP E h op) = exec E (contents h) (valueOp h op) := by
  have hone (s : Sys) (o : Op) : exec E s [o] = step E s o := by
    simp only [exec]; cases step E s o <;> rfl
  cases op with
  | make i p => exact congrArg Outcome.ok (contents_put hu p)
  | send d i dest proto =>
    simp only [valueOp]; rw [hone]; exact sendP_value E h d i dest proto hu
  | call o ho =>
    simp only [valueOp]; rw [hone]
    by_cases hr : o = .run
    · subst hr; exact runP_value E h
    · have hs : stepP E h (.call o ho) = (step E h.sys o >>= fun s' => .ok { h with sys := s' }) := by
        cases o <;> first | rfl | exact (hr rfl).elim
      rw [hs, contents_eq, over_step _ _ E h.sys o hr ho, contentsO_eq, mapO_bind]
      cases step E h.sys o <;> rfl

theorem exec_append' (E : Env) (a b : List Op) (s : Sys) : exec E s (a ++ b) = exec E s a >>= fun t => exec E t b := by
  induction a generalizing s with
  | nil => rfl
  | cons o a ih =>
    simp only [List.cons_append, exec]
    cases step E s o with
    | fail e => rfl
    | ok t => exact ih t

theorem execP_value (E : Env) (ops : List POp) (h : PSys) (hu : UnsharedRun E h ops) :
    contentsO (execP E h ops) = exec E (contents h) (valueOps E h ops) := by
  induction ops generalizing h with
  | nil => rfl
  | cons op ops ih =>
    have h0 := stepP_value E h op (hu [] op ops h rfl rfl)
    simp only [execP, valueOps]
    rw [exec_append', ← h0]
    cases hs : stepP E h op with
    | fail e => rfl
    | ok h' =>
      refine ih h' ?_
      intro o1 o o2 h1 he hx
      refine hu (op :: o1) o o2 h1 (by rw [he]; rfl) ?_
      simp only [execP]
      rw [hs]
      exact hx

theorem startP_eq {E : Env} {h h' : PSys} {d : DevId} {i : PktId} {dest : Addr} (hr : startP E h d i dest = .ok h') :
    h'.heap = h.heap ∧ h'.q = h.q ∧ h'.cur = put h.cur d (some i) := by
  unfold startP at hr
  simp only at hr
  split at hr
  · cases hr
  · split at hr
    · cases hr
    · rw [Outcome.bind_eq_ok] at hr
      obtain ⟨x, _, hr⟩ := hr
      injection hr with hr
      subst hr
      exact ⟨rfl, rfl, rfl⟩

theorem completeP_eq {E : Env} {h h' : PSys} {d : DevId} {dest : Addr} (hr : completeP E h d dest = .ok h') :
    h'.heap = h.heap ∧ ∀ i, Held h' i → Held h i := by
  unfold completeP at hr
  simp only at hr
  split at hr
  · cases hr
  · split at hr
    · cases hr
    · split at hr
      · cases hr
      · split at hr
        · injection hr with hr
          subst hr
          refine ⟨rfl, ?_⟩
          rintro k ⟨x, hk | hk⟩
          · exact ⟨x, Or.inl hk⟩
          · refine ⟨x, Or.inr ?_⟩
            simp only [put] at hk
            split at hk
            · cases hk
            · exact hk
        · rename_i j rest hq
          obtain ⟨h1, h2, h3⟩ := startP_eq hr
          refine ⟨h1, ?_⟩
          rintro k ⟨x, hk | hk⟩
          · rw [h2] at hk
            simp only [put] at hk
            split at hk
            · rename_i hx
              exact ⟨d, Or.inl (by rw [hq]; exact List.mem_cons_of_mem _ hk)⟩
            · exact ⟨x, Or.inl hk⟩
          · rw [h3] at hk
            simp only [put] at hk
            split at hk
            · injection hk with hk
              exact ⟨d, Or.inl (by rw [hq, hk]; exact List.mem_cons_self)⟩
            · exact ⟨x, Or.inr hk⟩

theorem sendP_eq {E : Env} {h h' : PSys} {d : DevId} {i : PktId} {dest : Addr} {proto : UInt16}
    (hr : sendP E h d i dest proto = .ok h') :
    (h'.heap = h.heap ∨ ∃ f, h'.heap = put h.heap i f) ∧ ∀ k, Held h' k → Held h k ∨ k = i := by
  unfold sendP at hr
  simp only at hr
  split at hr
  · injection hr with hr
    subst hr
    exact ⟨Or.inl rfl, fun k hk => Or.inl hk⟩
  · split at hr
    · cases hr
    · split at hr
      · cases hr
      · split at hr
        · split at hr
          · obtain ⟨j, rest, hj⟩ : ∃ j rest, h.q d ++ [i] = j :: rest := by
              cases h.q d <;> simp
            have hmem : ∀ k ∈ j :: rest, k ∈ h.q d ∨ k = i := by
              intro k hk
              rw [← hj] at hk
              simpa using hk
            rw [hj] at hr
            simp only at hr
            rw [Outcome.bind_eq_ok] at hr
            obtain ⟨h3, hst, hr⟩ := hr
            injection hr with hr
            subst hr
            obtain ⟨h1, h2, h4⟩ := startP_eq hst
            refine ⟨Or.inr ⟨_, h1⟩, ?_⟩
            have lift : ∀ k ∈ j :: rest, Held h k ∨ k = i := by
              intro k hk
              rcases hmem k hk with h5 | h5
              · exact Or.inl ⟨d, Or.inl h5⟩
              · exact Or.inr h5
            rintro k ⟨x, hk | hk⟩
            · rw [h2] at hk
              simp only [put] at hk
              split at hk
              · exact lift k (List.mem_cons_of_mem _ hk)
              · exact Or.inl ⟨x, Or.inl hk⟩
            · rw [h4] at hk
              simp only [put] at hk
              split at hk
              · injection hk with hk
                exact lift k (hk ▸ List.mem_cons_self)
              · exact Or.inl ⟨x, Or.inr hk⟩
          · injection hr with hr
            subst hr
            refine ⟨Or.inr ⟨_, rfl⟩, ?_⟩
            rintro k ⟨x, hk | hk⟩
            · simp only [put] at hk
              split at hk
              · rcases List.mem_append.mp hk with hk | hk
                · exact Or.inl ⟨d, Or.inl hk⟩
                · exact Or.inr (by simpa using hk)
              · exact Or.inl ⟨x, Or.inl hk⟩
            · exact Or.inl ⟨x, Or.inr hk⟩
        · injection hr with hr
          subst hr
          exact ⟨Or.inr ⟨_, rfl⟩, fun k hk => Or.inl hk⟩

theorem callP_eq {E : Env} {h h' : PSys} {o : Op} {ho} (hr : stepP E h (.call o ho) = .ok h') :
    h'.heap = h.heap ∧ ∀ i, Held h' i → Held h i := by
  by_cases hrun : o = .run
  · subst hrun
    simp only [stepP, runP] at hr
    split at hr
    · injection hr with hr
      subst hr
      exact ⟨rfl, fun _ hi => hi⟩
    · split at hr
      · obtain ⟨h1, h2⟩ := completeP_eq hr
        exact ⟨h1, h2⟩
      · rw [Outcome.bind_eq_ok] at hr
        obtain ⟨x, _, hr⟩ := hr
        injection hr with hr
        subst hr
        exact ⟨rfl, fun _ hi => hi⟩
  · have hs : stepP E h (.call o ho) = (step E h.sys o >>= fun s' => .ok { h with sys := s' }) := by
      cases o <;> first | rfl | exact (hrun rfl).elim
    rw [hs, Outcome.bind_eq_ok] at hr
    obtain ⟨x, _, hr⟩ := hr
    injection hr with hr
    subst hr
    exact ⟨rfl, fun _ hi => hi⟩

/-- Only `Send` makes a device hold a packet object, and only the one it is passed. -/
theorem held_stepP {E : Env} {h h' : PSys} {op : POp} (hs : stepP E h op = .ok h') {i : PktId} (hi : Held h' i) :
    Held h i ∨ ∃ d dest proto, op = .send d i dest proto := by
  cases op with
  | make j p =>
    injection hs with hs
    subst hs
    exact Or.inl hi
  | send d j dest proto =>
    rcases (sendP_eq hs).2 i hi with h1 | rfl
    · exact Or.inl h1
    · exact Or.inr ⟨_, _, _, rfl⟩
  | call o ho => exact Or.inl ((callP_eq hs).2 i hi)

theorem held_execP {E : Env} {ops : List POp} {h h' : PSys} (hs : execP E h ops = .ok h') {i : PktId} (hi : Held h' i) :
    Held h i ∨ ∃ d dest proto, .send d i dest proto ∈ ops := by
  induction ops generalizing h with
  | nil => injection hs with hs; subst hs; exact Or.inl hi
  | cons op ops ih =>
    simp only [execP] at hs
    rw [Outcome.bind_eq_ok] at hs
    obtain ⟨h1, h2, h3⟩ := hs
    rcases ih h3 with h4 | ⟨d, dest, proto, h4⟩
    · rcases held_stepP h2 h4 with h5 | ⟨d, dest, proto, rfl⟩
      · exact Or.inl h5
      · exact Or.inr ⟨d, dest, proto, List.mem_cons_self⟩
    · exact Or.inr ⟨d, dest, proto, List.mem_cons_of_mem _ h4⟩

end Verif
