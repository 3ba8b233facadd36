import Verif.Lemmas.NetFault
import Verif.Spec.Reentrant
/-! The invariant of the transmit path in the presence of nested calls. -/

namespace Verif
open Spec

/-- What the invariant says about one device depends on this much of the state. -/
structure View where
  dev : Dev
  txc : List (Time × Addr)
  acc : List Bytes
  beg : List Bytes
  fin : List Bytes
  ph : List Phase

/-- The view of a device. -/
def view (s : Sys) (x : DevId) : View :=
  ⟨s.dev x, txc x s.pending, accepted x s.log, begun x s.log, ended x s.log, phases x s.log⟩

/-- Where a call of a device that has handed control to connected code is suspended. -/
inductive Susp where
  /-- in `TransmitStart`, before the completion is scheduled -/
  | start
  /-- in `Send`, inside `Enqueue` -/
  | enqueue
  deriving DecidableEq

/-- Invariant of a device while `n` calls of `TransmitStart` on it have not yet scheduled their
completion and `m` calls of `Send` on it are inside `Enqueue`. -/
structure DI (n m : Nat) (v : View) : Prop where
  ready : v.dev.busy = false → v.dev.cur = none ∧ (v.dev.queue = [] ↔ m = 0) ∧ v.txc = [] ∧ n = 0
  busy : v.dev.busy = true → v.dev.cur.isSome = true ∧ v.txc.length + n = 1
  chan : v.dev.linkUp = true ∨ v.dev.busy = true → v.dev.chan.isSome = true
  cap : v.dev.queue.length ≤ v.dev.cap
  beg : v.beg = v.fin ++ v.dev.cur.toList
  ph : v.ph = v.fin.flatMap (fun f => [.start f, .stop f]) ++ (v.dev.cur.map Phase.start).toList

/-- Invariant of the system: `sus` lists the suspended calls, `B` the devices about which nothing is
said. -/
def RInv (sus : List (DevId × Susp)) (B : List DevId) (s : Sys) : Prop :=
  ∀ x, x ∉ B → DI (sus.count (x, .start)) (sus.count (x, .enqueue)) (view s x)

/-- `Fifo` for one device. -/
def VFifo (v w : View) : Prop := Fifo (v.beg ++ v.dev.queue) v.acc (w.beg ++ w.dev.queue) w.acc

theorem Fifo.refl (q a : List Bytes) : Fifo q a q a := ⟨[], [], by simp, by simp, List.Perm.nil⟩

theorem Fifo.trans {q a q' a' q'' a'' : List Bytes} (h1 : Fifo q a q' a') (h2 : Fifo q' a' q'' a'') :
    Fifo q a q'' a'' := by
  obtain ⟨l1, m1, rfl, rfl, p1⟩ := h1
  obtain ⟨l2, m2, rfl, rfl, p2⟩ := h2
  exact ⟨l1 ++ l2, m1 ++ m2, by simp, by simp, p1.append p2⟩

/-- The transmit path of a device has not moved; the device may have been reconfigured. -/
structure PathKept (v w : View) : Prop where
  busy : w.dev.busy = v.dev.busy
  cur : w.dev.cur = v.dev.cur
  queue : w.dev.queue = v.dev.queue
  cap : w.dev.cap = v.dev.cap
  txc : w.txc = v.txc
  acc : w.acc = v.acc
  beg : w.beg = v.beg
  fin : w.fin = v.fin
  ph : w.ph = v.ph

theorem PathKept.refl (v : View) : PathKept v v := ⟨rfl, rfl, rfl, rfl, rfl, rfl, rfl, rfl, rfl⟩

theorem PathKept.of_eq {v w : View} (h : w = v) : PathKept v w := h ▸ PathKept.refl _

theorem PathKept.trans {u v w : View} (h1 : PathKept u v) (h2 : PathKept v w) : PathKept u w :=
  ⟨h2.busy.trans h1.busy, h2.cur.trans h1.cur, h2.queue.trans h1.queue, h2.cap.trans h1.cap, h2.txc.trans h1.txc,
    h2.acc.trans h1.acc, h2.beg.trans h1.beg, h2.fin.trans h1.fin, h2.ph.trans h1.ph⟩

/-- How nested calls change the system. -/
def RRel (B : List DevId) (s s' : Sys) : Prop :=
  (∀ x ∈ B, PathKept (view s x) (view s' x)) ∧ (∀ x, VFifo (view s x) (view s' x)) ∧
    ∀ x, (view s x).dev.chan.isSome = true → (view s' x).dev.chan.isSome = true

theorem RRel.refl (B : List DevId) (s : Sys) : RRel B s s :=
  ⟨fun _ _ => PathKept.refl _, fun _ => Fifo.refl _ _, fun _ h => h⟩

theorem RRel.trans {B : List DevId} {s s' s'' : Sys} (h1 : RRel B s s') (h2 : RRel B s' s'') : RRel B s s'' :=
  ⟨fun x hx => (h1.1 x hx).trans (h2.1 x hx), fun x => Fifo.trans (h1.2.1 x) (h2.2.1 x),
    fun x h => h2.2.2 x (h1.2.2 x h)⟩

/-- The faults that are not excluded. -/
def Benign (e : Fault) : Prop :=
  e ≠ .txNotReady ∧ e ≠ .txNotBusy ∧ e ≠ .noCurrentPacket ∧ e ≠ .nullChannel

/-- An outcome is a benign fault or a state with a property. -/
def Tri (o : Outcome Sys) (Q : Sys → Prop) : Prop :=
  match o with
  | .ok s => Q s
  | .fail e => Benign e

theorem Tri.bind {o : Outcome Sys} {k : Sys → Outcome Sys} {Q R : Sys → Prop} (h : Tri o Q)
    (hk : ∀ s, Q s → Tri (k s) R) : Tri (o >>= k) R := by
  cases o with
  | ok s => exact hk s h
  | fail e => exact h

theorem Tri.mono {o : Outcome Sys} {Q R : Sys → Prop} (h : Tri o Q) (hk : ∀ s, Q s → R s) : Tri o R := by
  cases o with
  | ok s => exact hk s h
  | fail e => exact h

/-! ### Views under the elementary changes -/

theorem view_emit {s : Sys} {e : Ev} {x : DevId} (h1 : acceptedEv x e = none) (h2 : begunEv x e = none)
    (h3 : endedEv x e = none) (h4 : phaseEv x e = none) : view (s.emit e) x = view s x := by
  simp [view, Sys.emit, accepted, begun, ended, phases, h1, h2, h3, h4]

theorem view_setDev_self (s : Sys) (d : DevId) (v : Dev) :
    view (s.setDev d v) d = { view s d with dev := v } := by simp [view, Sys.setDev]

theorem view_setDev_other {s : Sys} {d x : DevId} (v : Dev) (h : x ≠ d) :
    view (s.setDev d v) x = view s x := by simp [view, Sys.setDev, h]

theorem view_begin_self (s : Sys) (d : DevId) (f : Bytes) : view (s.emit (.phyTxBegin d f)) d =
    { view s d with beg := (view s d).beg ++ [f], ph := (view s d).ph ++ [.start f] } := by
  simp [view, Sys.emit, accepted, begun, ended, phases, acceptedEv, begunEv, endedEv, phaseEv]

theorem view_begin_other {s : Sys} {d x : DevId} (f : Bytes) (h : x ≠ d) :
    view (s.emit (.phyTxBegin d f)) x = view s x := by
  have h' : ¬ d = x := fun hh => h hh.symm
  exact view_emit rfl (by simp [begunEv, h']) rfl (by simp [phaseEv, h'])

theorem view_end_self (s : Sys) (d : DevId) (f : Bytes) : view (s.emit (.phyTxEnd d f)) d =
    { view s d with fin := (view s d).fin ++ [f], ph := (view s d).ph ++ [.stop f] } := by
  simp [view, Sys.emit, accepted, begun, ended, phases, acceptedEv, begunEv, endedEv, phaseEv]

theorem view_end_other {s : Sys} {d x : DevId} (f : Bytes) (h : x ≠ d) :
    view (s.emit (.phyTxEnd d f)) x = view s x := by
  have h' : ¬ d = x := fun hh => h hh.symm
  exact view_emit rfl rfl (by simp [endedEv, h']) (by simp [phaseEv, h'])

theorem view_sendRet_self (s : Sys) (d : DevId) (p : Bytes) (dest : Addr) (pr : UInt16) (f : Bytes) :
    view (s.emit (.sendRet d p dest pr true f)) d = { view s d with acc := (view s d).acc ++ [f] } := by
  simp [view, Sys.emit, accepted, begun, ended, phases, acceptedEv, begunEv, endedEv, phaseEv]

theorem view_sendRet_other {s : Sys} {d x : DevId} (p : Bytes) (dest : Addr) (pr : UInt16) (f : Bytes)
    (h : x ≠ d) : view (s.emit (.sendRet d p dest pr true f)) x = view s x := by
  have h' : ¬ d = x := fun hh => h hh.symm
  exact view_emit (by simp [acceptedEv, h']) rfl rfl rfl

theorem view_schedule_self {s : Sys} {d : DevId} (t : Time) (dest : Addr) (h : (view s d).txc = []) :
    view (s.schedule t (.txComplete d dest)) d = { view s d with txc := [(s.now + t, dest)] } := by
  have h' : txc d s.pending = [] := h
  simp [view, Sys.schedule, txc_insert_self _ _ h']

theorem view_schedule_other {s : Sys} {d x : DevId} (t : Time) (dest : Addr) (h : x ≠ d) :
    view (s.schedule t (.txComplete d dest)) x = view s x := by
  have h' : d ≠ x := fun hh => h hh.symm
  simp [view, Sys.schedule, txc_insert_other h']

theorem view_chanTransmit {E : Env} {s s' : Sys} {c : ChanId} {f : Bytes} {slot : Nat} {dest : Addr} {t : Time}
    {b : Bool} (h : chanTransmit E s c f slot dest t = .ok (s', b)) (x : DevId) : view s' x = view s x := by
  obtain ⟨src, rs, rfl, _⟩ := chanTransmit_ok h
  have hN := Neutral.entries x s.now c f src t rs
  obtain ⟨h1, h2, h3, h4⟩ := hN
  unfold accepted begun ended phases at *
  simp only [view, addRecvs, txc_insertAll_recv, accepted, begun, ended, phases, proj_append, h1, h2, h3, h4,
    List.append_nil]

/-- Connected code behaves when the invariant holds. -/
def SinkOk (sus : List (DevId × Susp)) (B : List DevId) (k : Sys → Outcome Sys) : Prop :=
  ∀ s, RInv sus B s → Tri (k s) (fun s' => RInv sus B s' ∧ RRel B s s')

/-- The set of devices about which nothing is said while a hook fires. -/
def blk (h : Hook) (d : DevId) (B : List DevId) : List DevId := if Hook.delicate h then d :: B else B

/-- Connected code for a device that sends or completes. -/
def SinksOk (d : DevId) (B : List DevId) (k : Sinks) : Prop := ∀ h sus, SinkOk sus (blk h d B) (k h)

theorem rinv_view {sus : List (DevId × Susp)} {B : List DevId} {s s' : Sys} (h : RInv sus B s) (hv : ∀ x, x ∉ B → view s' x = view s x) :
    RInv sus B s' := fun x hx => by rw [hv x hx]; exact h x hx

theorem rrel_view {B : List DevId} {s s' : Sys} (hv : ∀ x, view s' x = view s x) : RRel B s s' :=
  ⟨fun x _ => .of_eq (hv x), fun x => by rw [hv x]; exact Fifo.refl _ _, fun x => by rw [hv x]; exact id⟩

/-- A hook that is not delicate, after a neutral entry. -/
theorem SinksOk.fire {d : DevId} {B : List DevId} {sus : List (DevId × Susp)} {k : Sinks} (hk : SinksOk d B k) {h : Hook}
    (hh : Hook.delicate h = false) {s : Sys} {e : Ev} (hi : RInv sus B s)
    (he : ∀ x, view (s.emit e) x = view s x) :
    Tri (k h (s.emit e)) (fun s' => RInv sus B s' ∧ RRel B s s') := by
  have := hk h sus
  rw [blk, hh] at this
  refine (this (s.emit e) (rinv_view hi fun x _ => he x)).mono ?_
  rintro s' ⟨h1, h2⟩
  exact ⟨h1, (rrel_view he).trans h2⟩

/-- `Tri` for the functions of the channel. -/
def TriP (o : Outcome (Sys × Bool)) (Q : Sys → Prop) : Prop :=
  match o with
  | .ok r => Q r.1
  | .fail e => Benign e

theorem TriP.bind {o : Outcome (Sys × Bool)} {k : Sys × Bool → Outcome (Sys × Bool)} {Q R : Sys → Prop} (h : TriP o Q)
    (hk : ∀ r, Q r.1 → TriP (k r) R) : TriP (o >>= k) R := by
  cases o with
  | ok s => exact hk s h
  | fail e => exact h

theorem TriP.bindS {o : Outcome (Sys × Bool)} {k : Sys × Bool → Outcome Sys} {Q R : Sys → Prop} (h : TriP o Q)
    (hk : ∀ r, Q r.1 → Tri (k r) R) : Tri (o >>= k) R := by
  cases o with
  | ok s => exact hk s h
  | fail e => exact h

theorem Tri.bindP {o : Outcome Sys} {k : Sys → Outcome (Sys × Bool)} {Q R : Sys → Prop} (h : Tri o Q)
    (hk : ∀ r, Q r → TriP (k r) R) : TriP (o >>= k) R := by
  cases o with
  | ok s => exact hk s h
  | fail e => exact h

theorem TriP.mono {o : Outcome (Sys × Bool)} {Q R : Sys → Prop} (h : TriP o Q) (hk : ∀ s, Q s → R s) : TriP o R := by
  cases o with
  | ok s => exact hk _ h
  | fail e => exact h

theorem view_deliver {E : Env} {s s' : Sys} {c : ChanId} {f : Bytes} {src dst : DevId} {t : Time}
    {b : Bool} (h : deliver E s c f src dst t = .ok (s', b)) (x : DevId) : view s' x = view s x := by
  obtain ⟨rfl, _⟩ := deliver_ok h
  have hN := Neutral.entries x s.now c f src t (recvOf E s c src t dst).toList
  obtain ⟨h1, h2, h3, h4⟩ := hN
  unfold accepted begun ended phases at *
  simp only [view, addRecvs, txc_insertAll_recv, accepted, begun, ended, phases, proj_append, h1, h2, h3, h4,
    List.append_nil]

theorem deliverK_tri {E : Env} {k : Sys → Outcome Sys} {s : Sys} {c : ChanId} {f : Bytes} {src dst : DevId} {t : Time}
    {sus : List (DevId × Susp)} {B : List DevId} (hk : SinkOk sus B k) (hi : RInv sus B s) :
    TriP (deliverK E k s c f src dst t) (fun s' => RInv sus B s' ∧ RRel B s s') := by
  unfold deliverK
  cases hd : deliver E s c f src dst t with
  | fail e =>
    obtain ⟨rfl, _⟩ := deliver_fail hd
    simp [TriP, Benign]
  | ok r =>
    obtain ⟨s1, b⟩ := r
    have hv := view_deliver hd
    have hi1 : RInv sus B s1 := rinv_view hi fun x _ => hv x
    cases b with
    | false => exact ⟨hi1, rrel_view hv⟩
    | true =>
      refine Tri.bindP (hk s1 hi1) ?_
      rintro s2 ⟨h1, h2⟩
      exact ⟨h1, (rrel_view hv).trans h2⟩

theorem leoLoopK_tri {E : Env} {k : Sinks} {c : ChanId} {g : Bool} {f : Bytes} {src : DevId} {t : Time}
    {sus : List (DevId × Susp)} {B : List DevId} (hk : ∀ a i, SinkOk sus B (k (.txrxAt c a i))) (n : Nat) :
    ∀ (i : Nat) (rest : List (Mac48 × DevId)) (s : Sys) (r : Bool), RInv sus B s →
    TriP (leoLoopK E k c g f src t n i rest s r) (fun s' => RInv sus B s' ∧ RRel B s s') := by
  induction n with
  | zero =>
    intro i rest s r hi
    cases rest with
    | nil => exact ⟨hi, RRel.refl _ _⟩
    | cons => simp [leoLoopK, TriP, Benign]
  | succ n ih =>
    intro i rest s r hi
    cases rest with
    | nil => exact ⟨hi, RRel.refl _ _⟩
    | cons x rest =>
      obtain ⟨a, d⟩ := x
      rw [leoLoopK]
      refine TriP.bind (deliverK_tri (hk a i) hi) ?_
      rintro ⟨s', b⟩ ⟨h1, h2⟩
      exact (ih _ _ _ _ h1).mono fun s'' h => ⟨h.1, h2.trans h.2⟩

theorem islLoopK_tri {E : Env} {k : Sinks} {c : ChanId} {f : Bytes} {src : DevId} {slot : Nat} {t : Time}
    {sus : List (DevId × Susp)} {B : List DevId} (hk : ∀ i, SinkOk sus B (k (.txrx i))) (n : Nat) :
    ∀ (i : Nat) (s : Sys), RInv sus B s →
    Tri (islLoopK E k c f src slot t n i s) (fun s' => RInv sus B s' ∧ RRel B s s') := by
  induction n with
  | zero =>
    intro i s hi
    rw [islLoopK]
    split
    · exact ⟨hi, RRel.refl _ _⟩
    · simp [Tri, Benign]
  | succ n ih =>
    intro i s hi
    rw [islLoopK]
    split
    · exact ⟨hi, RRel.refl _ _⟩
    · simp only
      split
      · exact ih _ _ hi
      · refine TriP.bindS (deliverK_tri (hk i) hi) ?_
        rintro ⟨s', b⟩ ⟨h1, h2⟩
        exact (ih _ _ h1).mono fun s'' h => ⟨h.1, h2.trans h.2⟩

theorem chanTransmitK_tri {E : Env} {k : Sinks} {s : Sys} {c : ChanId} {f : Bytes} {slot : Nat} {dest : Addr} {t : Time}
    {sus : List (DevId × Susp)} {B : List DevId} {d : DevId} (hk : SinksOk d B k) (hi : RInv sus B s) :
    TriP (chanTransmitK E k s c f slot dest t) (fun s' => RInv sus B s' ∧ RRel B s s') := by
  have h1 : ∀ i, SinkOk sus B (k (.txrx i)) := fun i => hk (.txrx i) sus
  have h2 : ∀ a i, SinkOk sus B (k (.txrxAt c a i)) := fun a i => hk (.txrxAt c a i) sus
  have stay : RInv sus B s ∧ RRel B s s := ⟨hi, RRel.refl _ _⟩
  unfold chanTransmitK
  split
  · unfold leoTransmitK
    split
    · exact stay
    · simp only
      split
      · simp [TriP, Benign]
      · split
        · exact leoLoopK_tri h2 _ _ _ _ _ hi
        · split
          · exact leoLoopK_tri h2 _ _ _ _ _ hi
          · exact stay
  · unfold islTransmitK
    split
    · exact stay
    · split
      · exact deliverK_tri (h1 0) hi
      · split
        · simp [TriP, Benign]
        · split
          · refine Tri.bindP (islLoopK_tri h1 _ _ _ hi) ?_
            intro s' h
            exact h
          · exact stay

/-- `TransmitStart` on an idle device `d` outside `B`. -/
theorem start_tri {E : Env} {k : Sinks} {s : Sys} {d : DevId} {f : Bytes} {dest : Addr} {sus : List (DevId × Susp)} {B : List DevId}
    (hk : SinksOk d B k) (hd : d ∉ B) (hi : RInv sus (d :: B) s)
    (hb : (s.dev d).busy = false) (hc : (s.dev d).cur = none) (ht : txc d s.pending = [])
    (hn : sus.count (d, .start) = 0) (hch : (s.dev d).chan.isSome = true) (hcap : (s.dev d).queue.length ≤ (s.dev d).cap)
    (hbeg : (view s d).beg = (view s d).fin)
    (hph : (view s d).ph = (view s d).fin.flatMap (fun f => [.start f, .stop f])) :
    Tri (transmitStartK E k s d f dest) (fun s' => RInv sus B s' ∧ (∀ x ∈ B, PathKept (view s x) (view s' x)) ∧
      (∀ x, x ≠ d → VFifo (view s x) (view s' x)) ∧
      Fifo ((view s d).beg ++ f :: (s.dev d).queue) (view s d).acc
        ((view s' d).beg ++ (s'.dev d).queue) (view s' d).acc ∧
      ∀ x, (view s x).dev.chan.isSome = true → (view s' x).dev.chan.isSome = true) := by
  unfold transmitStartK
  rw [if_neg (by simp [hb])]
  obtain ⟨s0, hs0⟩ : ∃ s0, s0 = (s.setDev d { s.dev d with busy := true, cur := some f }).emit (.phyTxBegin d f) :=
    ⟨_, rfl⟩
  have hv0 : view s0 d = ⟨{ s.dev d with busy := true, cur := some f }, [], (view s d).acc,
      (view s d).beg ++ [f], (view s d).fin, (view s d).ph ++ [.start f]⟩ := by
    rw [hs0, view_begin_self, view_setDev_self]
    simp [view, ht]
  have hvo : ∀ x, x ≠ d → view s0 x = view s x := by
    intro x hx
    rw [hs0, view_begin_other _ hx, view_setDev_other _ hx]
  have hi0 : RInv ((d, .start) :: sus) B s0 := by
    intro x hx
    by_cases hxd : x = d
    · subst hxd
      rw [hv0, List.count_cons_self, List.count_cons_of_ne (by simp), hn]
      refine ⟨by simp, by simp, by simpa using hch, by simpa using hcap, by simp [hbeg], by simp [hph]⟩
    · rw [hvo x hxd, List.count_cons_of_ne (fun hh => hxd (congrArg Prod.fst hh).symm),
        List.count_cons_of_ne (by simp)]
      exact hi x (by simp [hxd, hx])
  have h1 := hk .phyTxBegin ((d, .start) :: sus) s0 hi0
  refine Tri.bind (Q := fun s' => RInv ((d, .start) :: sus) B s' ∧ RRel B s0 s') (by subst hs0; exact h1) ?_
  rintro s1 ⟨hi1, hk1, hf1, hc1'⟩
  have hd1 := hi1 d hd
  rw [List.count_cons_self, List.count_cons_of_ne (by simp), hn] at hd1
  have hb1 : (s1.dev d).busy = true := by
    cases hbb : (s1.dev d).busy with
    | true => rfl
    | false => exact absurd (hd1.ready hbb).2.2.2 (by simp)
  have ht1 : (view s1 d).txc = [] := by
    have := (hd1.busy hb1).2
    exact List.length_eq_zero_iff.mp (by omega)
  have hch1 : (s1.dev d).chan.isSome = true := hd1.chan (Or.inr hb1)
  obtain ⟨c, hc1⟩ := Option.isSome_iff_exists.mp hch1
  simp only [hc1]
  obtain ⟨s2, hs2⟩ : ∃ s2, s2 = s1.schedule (E.txTime (s1.dev d).rate f.length + (s1.dev d).gap) (.txComplete d dest) :=
    ⟨_, rfl⟩
  rw [← hs2]
  have hi2 : RInv sus B (s2.emit (.onAir d f dest)) := by
    intro x hx
    rw [view_emit rfl rfl rfl rfl]
    by_cases hxd : x = d
    · subst hxd
      rw [hs2, view_schedule_self _ _ ht1, hn]
      exact ⟨fun h => absurd (hb1.symm.trans h) (by simp),
        fun h => ⟨(hd1.busy h).1, rfl⟩, hd1.chan, hd1.cap, hd1.beg, hd1.ph⟩
    · rw [hs2, view_schedule_other _ _ hxd]
      have := hi1 x hx
      rwa [List.count_cons_of_ne (fun hh => hxd (congrArg Prod.fst hh).symm),
        List.count_cons_of_ne (by simp)] at this
  have hsame : ∀ x, VFifo (view s1 x) (view (s2.emit (.onAir d f dest)) x) ∧
      (x ≠ d → view (s2.emit (.onAir d f dest)) x = view s1 x) := by
    intro x
    rw [view_emit rfl rfl rfl rfl]
    by_cases hxd : x = d
    · subst hxd
      rw [hs2, view_schedule_self _ _ ht1]
      exact ⟨Fifo.refl _ _, fun h => absurd rfl h⟩
    · rw [hs2, view_schedule_other _ _ hxd]
      exact ⟨Fifo.refl _ _, fun _ => rfl⟩
  have hct := chanTransmitK_tri (E := E) (c := c) (f := f) (slot := (s1.dev d).chanSlot) (dest := dest)
    (t := E.txTime (s1.dev d).rate f.length) hk hi2
  refine TriP.bindS hct ?_
  · rintro ⟨s3, b⟩ ⟨hi3, hr3⟩
    simp only at hi3 hr3
    have fin : ∀ s', RInv sus B s' → RRel B s3 s' → RInv sus B s' ∧ (∀ x ∈ B, PathKept (view s x) (view s' x)) ∧
        (∀ x, x ≠ d → VFifo (view s x) (view s' x)) ∧
        Fifo ((view s d).beg ++ f :: (s.dev d).queue) (view s d).acc
          ((view s' d).beg ++ (s'.dev d).queue) (view s' d).acc ∧
        ∀ x, (view s x).dev.chan.isSome = true → (view s' x).dev.chan.isSome = true := by
      intro s' hi' hr'
      obtain ⟨hk', hf', hch'⟩ := hr3.trans hr'
      refine ⟨hi', ?_, ?_, ?_, ?_⟩
      · intro x hx
        have hxd : x ≠ d := fun hh => hd (hh ▸ hx)
        have h1 := hk1 x hx
        have h2 := hk' x hx
        rw [hvo x hxd] at h1
        rw [(hsame x).2 hxd] at h2
        exact h1.trans h2
      · intro x hxd
        have h2 := hf1 x
        rw [hvo x hxd] at h2
        have h3 := (hsame x).1
        exact Fifo.trans (Fifo.trans h2 h3) (hf' x)
      · have h2 := hf1 d
        have h3 := (hsame d).1
        have h4 := Fifo.trans (Fifo.trans h2 h3) (hf' d)
        rw [hv0] at h4
        simpa [VFifo, view] using h4
      · intro x hx
        refine hch' x ?_
        by_cases hxd : x = d
        · subst hxd
          rw [view_emit rfl rfl rfl rfl, hs2, view_schedule_self _ _ ht1]
          exact hc1' x (by rw [hv0]; exact hx)
        · rw [(hsame x).2 hxd]
          exact hc1' x (by rw [hvo x hxd]; exact hx)
    cases b with
    | true => exact fin s3 hi3 (RRel.refl _ _)
    | false =>
      refine (SinksOk.fire hk (h := .phyTxDrop) rfl hi3 (fun x => view_emit rfl rfl rfl rfl)).mono ?_
      rintro s' ⟨h1, h2⟩
      exact fin s' h1 h2

/-- A delicate hook of `d` after a neutral entry: `d` keeps its state. -/
theorem SinksOk.fireB {d : DevId} {B : List DevId} {sus : List (DevId × Susp)} {k : Sinks} (hk : SinksOk d B k) {h : Hook}
    (hh : Hook.delicate h = true) {s : Sys} {e : Ev} (hi : RInv sus (d :: B) s)
    (he : ∀ x, view (s.emit e) x = view s x) :
    Tri (k h (s.emit e)) (fun s' => RInv sus (d :: B) s' ∧ RRel (d :: B) s s') := by
  have := hk h sus
  rw [blk, hh] at this
  refine (this (s.emit e) (rinv_view hi fun x _ => he x)).mono ?_
  rintro s' ⟨h1, h2⟩
  exact ⟨h1, (rrel_view he).trans h2⟩

theorem RRel.anti {B : List DevId} {d : DevId} {s s' : Sys} (h : RRel (d :: B) s s') : RRel B s s' :=
  ⟨fun x hx => h.1 x (by simp [hx]), h.2⟩

/-- The rest of `Send` after `Enqueue`, on a device outside `B`. -/
theorem sendStart_tri {E : Env} {k : Sinks} {s : Sys} {d : DevId} {dest : Addr}
    {sus : List (DevId × Susp)} {B : List DevId} (hk : SinksOk d B k) (hd : d ∉ B)
    (hi : RInv ((d, .enqueue) :: sus) B s) (hch : (s.dev d).chan.isSome = true) :
    Tri (sendStartK E k s d dest) (fun s' => RInv sus B s' ∧ RRel B s s') := by
  have hd1 := hi d hd
  rw [List.count_cons_self, List.count_cons_of_ne (by simp)] at hd1
  have hother : ∀ x, x ∉ B → x ≠ d → DI (sus.count (x, .start)) (sus.count (x, .enqueue)) (view s x) := by
    intro x hx hxd
    have := hi x hx
    rwa [List.count_cons_of_ne (by simp), List.count_cons_of_ne (fun hh => hxd (congrArg Prod.fst hh).symm)] at this
  unfold sendStartK
  split
  · rename_i hb
    have hb : (s.dev d).busy = false := by simpa using hb
    obtain ⟨hc, hq, ht, hn⟩ := hd1.ready hb
    have hc' : (s.dev d).cur = none := hc
    split
    · rename_i hq'
      exact absurd (hq.mp hq') (by simp)
    · rename_i g rest hq'
      obtain ⟨s2, hs2⟩ : ∃ t, t = s.setDev d { s.dev d with queue := rest } := ⟨_, rfl⟩
      have hv2 : view s2 d = { view s d with dev := { s.dev d with queue := rest } } := by
        rw [hs2, view_setDev_self]
      have hvo : ∀ x, x ≠ d → view s2 x = view s x := by
        intro x hx
        rw [hs2, view_setDev_other _ hx]
      have hi2 : RInv sus (d :: B) s2 := by
        intro x hx
        have hxd : x ≠ d := fun hh => hx (by simp [hh])
        rw [hvo x hxd]
        exact hother x (fun hh => hx (by simp [hh])) hxd
      rw [← hs2]
      refine Tri.bind (hk .dequeue sus s2 hi2) ?_
      rintro s3 ⟨hi3, hr3⟩
      refine Tri.bind (SinksOk.fireB hk (h := .promiscSniffer) rfl hi3 (fun x => view_emit rfl rfl rfl rfl)) ?_
      rintro s4 ⟨hi4, hr4⟩
      refine Tri.bind (SinksOk.fireB hk (h := .sniffer) rfl hi4 (fun x => view_emit rfl rfl rfl rfl)) ?_
      rintro s5 ⟨hi5, hr5⟩
      have hr3 : RRel (d :: B) s2 s3 := hr3
      have hr : RRel (d :: B) s2 s5 := (hr3.trans hr4).trans hr5
      have hvd : PathKept (view s2 d) (view s5 d) := hr.1 d (by simp)
      rw [hv2] at hvd
      have hlen : rest.length ≤ (s.dev d).cap := by
        have := hd1.cap
        simp only [view, hq', List.length_cons] at this
        omega
      refine (start_tri (f := g) (dest := dest) (sus := sus) hk hd hi5 (hvd.busy.trans hb)
        (hvd.cur.trans hc') (hvd.txc.trans ht) hn
        (hr.2.2 d (by rw [hv2]; exact hch))
        (by rw [show (s5.dev d).queue = rest from hvd.queue, show (s5.dev d).cap = (s.dev d).cap from hvd.cap]; exact hlen)
        (by rw [hvd.beg, hvd.fin]; simpa [view, hc'] using hd1.beg)
        (by rw [hvd.ph, hvd.fin]; simpa [view, hc'] using hd1.ph)).mono ?_
      rintro s6 ⟨hi6, hk6, hf6, hfd, hch6⟩
      refine ⟨hi6, ?_, ?_, ?_⟩
      · intro x hx
        have hxd : x ≠ d := fun hh => hd (hh ▸ hx)
        have h1 := hr.1 x (by simp [hx])
        rw [hvo x hxd] at h1
        exact h1.trans (hk6 x hx)
      · intro x
        by_cases hxd : x = d
        · subst hxd
          rw [hvd.beg, hvd.acc, show (s5.dev x).queue = rest from hvd.queue] at hfd
          unfold VFifo
          rw [show (view s x).dev.queue = g :: rest from hq']
          exact hfd
        · have h2 := hr.2.1 x
          rw [hvo x hxd] at h2
          exact Fifo.trans h2 (hf6 x hxd)
      · intro x hx
        refine hch6 x (hr.2.2 x ?_)
        by_cases hxd : x = d
        · subst hxd
          rw [hv2]; exact hx
        · rw [hvo x hxd]; exact hx
  · rename_i hb
    have hb : (s.dev d).busy = true := by simpa using hb
    refine ⟨?_, RRel.refl _ _⟩
    intro x hx
    by_cases hxd : x = d
    · subst hxd
      exact ⟨fun h => absurd (hb.symm.trans h) (by simp), hd1.busy, hd1.chan, hd1.cap, hd1.beg, hd1.ph⟩
    · exact hother x hx hxd

/-- `Send` on a device outside `B`. -/
theorem send_tri {E : Env} {k : Sinks} {s : Sys} {d : DevId} {p : Bytes} {dest : Addr} {proto : UInt16}
    {sus : List (DevId × Susp)} {B : List DevId} (hk : SinksOk d B k) (hd : d ∉ B) (hi : RInv sus B s) :
    Tri (sendK E k s d p dest proto) (fun s' => RInv sus B s' ∧ RRel B s s') := by
  unfold sendK
  split
  · refine Tri.bind (SinksOk.fire hk (h := .macTxDrop) rfl hi (fun x => view_emit rfl rfl rfl rfl)) ?_
    rintro s1 ⟨h1, h2⟩
    have he : ∀ x, view (s1.emit (.sendRet d p dest proto false p)) x = view s1 x :=
      fun x => view_emit rfl rfl rfl rfl
    exact ⟨rinv_view h1 fun x _ => he x, h2.trans (rrel_view he)⟩
  · rename_i hlu
    have hlu : (s.dev d).linkUp = true := by simpa using hlu
    cases dest with
    | other => simp [Tri, Benign]
    | mac m =>
      simp only
      generalize addHeader E.fcs p (s.dev d).addr m proto = f
      refine Tri.bind (SinksOk.fire hk (h := .macTx) rfl hi (fun x => view_emit rfl rfl rfl rfl)) ?_
      rintro s1 ⟨hi1, hr1⟩
      split
      · simp [Tri, Benign]
      · split
        · rename_i hcap
          have hd1 := hi1 d hd
          obtain ⟨s1q, hs1q⟩ : ∃ t, t = s1.setDev d { s1.dev d with queue := (s1.dev d).queue ++ [f] } := ⟨_, rfl⟩
          have hvq : view s1q d = { view s1 d with dev := { s1.dev d with queue := (s1.dev d).queue ++ [f] } } := by
            rw [hs1q, view_setDev_self]
          have hvo : ∀ x, x ≠ d → view s1q x = view s1 x := by
            intro x hx
            rw [hs1q, view_setDev_other _ hx]
          have hiq : RInv ((d, .enqueue) :: sus) B s1q := by
            intro x hx
            by_cases hxd : x = d
            · subst hxd
              rw [hvq, List.count_cons_self, List.count_cons_of_ne (by simp)]
              refine ⟨?_, hd1.busy, hd1.chan, ?_, hd1.beg, hd1.ph⟩
              · intro hb
                obtain ⟨h1, _, h3, h4⟩ := hd1.ready hb
                exact ⟨h1, by simp, h3, h4⟩
              · simp only [List.length_append, List.length_singleton]; exact hcap
            · rw [hvo x hxd, List.count_cons_of_ne (by simp),
                List.count_cons_of_ne (fun hh => hxd (congrArg Prod.fst hh).symm)]
              exact hi1 x hx
          have hch : (s1q.dev d).chan.isSome = true := by
            rw [show (s1q.dev d).chan = (view s1q d).dev.chan from rfl, hvq]
            exact hr1.2.2 d ((hi d hd).chan (Or.inl hlu))
          rw [← hs1q]
          refine Tri.bind (hk .enqueue ((d, .enqueue) :: sus) s1q hiq) ?_
          rintro s2 ⟨hi2, hr2⟩
          refine Tri.bind (sendStart_tri (dest := .mac m) hk hd hi2
            (hr2.2.2 d hch)) ?_
          rintro s3 ⟨hi3, hr3⟩
          have hr := hr2.trans hr3
          refine ⟨?_, hr1.trans ⟨?_, ?_, ?_⟩⟩
          · intro x hx
            by_cases hxd : x = d
            · subst hxd
              rw [view_sendRet_self]
              have := hi3 x hx
              exact ⟨this.ready, this.busy, this.chan, this.cap, this.beg, this.ph⟩
            · rw [view_sendRet_other _ _ _ _ hxd]
              exact hi3 x hx
          · intro x hx
            have hxd : x ≠ d := fun hh => hd (hh ▸ hx)
            have h1 := hr.1 x hx
            rw [hvo x hxd] at h1
            rwa [view_sendRet_other _ _ _ _ hxd]
          · intro x
            by_cases hxd : x = d
            · subst hxd
              rw [view_sendRet_self]
              obtain ⟨l, a, h1, h2, h3⟩ := hr.2.1 x
              rw [hvq] at h1 h2
              refine ⟨f :: l, a ++ [f], ?_, ?_, ?_⟩
              · rw [show (view s1 x).dev.queue = (s1.dev x).queue from rfl]
                simpa using h1
              · simp [h2]
              · exact (List.Perm.cons f h3).trans (List.perm_append_singleton f a).symm
            · rw [view_sendRet_other _ _ _ _ hxd]
              have := hr.2.1 x
              rwa [hvo x hxd] at this
          · intro x hx
            have h1 : (view (s3.emit (.sendRet d p (.mac m) proto true f)) x).dev = (view s3 x).dev := rfl
            rw [h1]
            refine hr.2.2 x ?_
            by_cases hxd : x = d
            · subst hxd; rw [hvq]; exact hx
            · rw [hvo x hxd]; exact hx
        · refine Tri.bind (hk .queueDrop sus s1 hi1) ?_
          rintro s1d ⟨hi1d, hr1d⟩
          refine Tri.bind (SinksOk.fire hk (h := .macTxDrop) rfl hi1d (fun x => view_emit rfl rfl rfl rfl)) ?_
          rintro s2 ⟨h1, h2⟩
          have he : ∀ x, view (s2.emit (.sendRet d p (.mac m) proto false f)) x = view s2 x :=
            fun x => view_emit rfl rfl rfl rfl
          exact ⟨rinv_view h1 fun x _ => he x, ((hr1.trans hr1d).trans h2).trans (rrel_view he)⟩

/-- `TransmitComplete` on a device whose completion has just been taken from the event list. -/
theorem complete_tri {E : Env} {k : Sinks} {s : Sys} {d : DevId} {dest : Addr} {sus : List (DevId × Susp)} {B : List DevId}
    (hk : SinksOk d B k) (hd : d ∉ B) (hi : RInv sus (d :: B) s) {f : Bytes}
    (hm : sus.count (d, .enqueue) = 0)
    (hb : (s.dev d).busy = true) (hc : (s.dev d).cur = some f) (ht : txc d s.pending = [])
    (hn : sus.count (d, .start) = 0) (hch : (s.dev d).chan.isSome = true) (hcap : (s.dev d).queue.length ≤ (s.dev d).cap)
    (hbeg : (view s d).beg = (view s d).fin ++ [f])
    (hph : (view s d).ph = (view s d).fin.flatMap (fun f => [.start f, .stop f]) ++ [.start f]) :
    Tri (transmitCompleteK E k s d dest) (fun s' => RInv sus B s' ∧ RRel B s s') := by
  unfold transmitCompleteK
  rw [if_neg (by simp [hb])]
  split
  · rename_i hcc
    exact absurd (hc.symm.trans hcc) (by simp)
  rename_i f' hcc
  obtain rfl : f = f' := Option.some.inj (hc.symm.trans hcc)
  clear hcc
  obtain ⟨s0, hs0⟩ : ∃ s0, s0 = (s.setDev d { s.dev d with busy := false }).emit (.phyTxEnd d f) := ⟨_, rfl⟩
  have hv0 : view s0 d = ⟨{ s.dev d with busy := false }, [], (view s d).acc,
      (view s d).beg, (view s d).fin ++ [f], (view s d).ph ++ [.stop f]⟩ := by
    rw [hs0, view_end_self, view_setDev_self]
    simp [view, ht]
  have hvo : ∀ x, x ≠ d → view s0 x = view s x := by
    intro x hx
    rw [hs0, view_end_other _ hx, view_setDev_other _ hx]
  have hi0 : RInv sus (d :: B) s0 := by
    intro x hx
    have hxd : x ≠ d := fun hh => hx (by simp [hh])
    rw [hvo x hxd]
    exact hi x hx
  refine Tri.bind (Q := fun s' => RInv sus (d :: B) s' ∧ RRel (d :: B) s0 s')
    (by subst hs0; exact hk .phyTxEnd sus _ hi0) ?_
  rintro s1 ⟨hi1, hr1⟩
  have hv1 : PathKept (view s0 d) (view s1 d) := hr1.1 d (by simp)
  rw [hv0] at hv1
  have hch1 : (s1.dev d).chan.isSome = true := hr1.2.2 d (by rw [hv0]; exact hch)
  obtain ⟨s2, hs2⟩ : ∃ s2, s2 = s1.setDev d { s1.dev d with cur := none } := ⟨_, rfl⟩
  rw [← hs2]
  have hv2 : view s2 d = { view s1 d with dev := { s1.dev d with cur := none } } := by
    rw [hs2, view_setDev_self]
  have hdev2 : s2.dev d = { s1.dev d with cur := none } := congrArg View.dev hv2
  have hq1 : (s1.dev d).queue = (s.dev d).queue := hv1.queue
  have hcap1 : (s1.dev d).cap = (s.dev d).cap := hv1.cap
  have hb1 : (s1.dev d).busy = false := hv1.busy
  have hvo2 : ∀ x, x ≠ d → view s2 x = view s1 x := by
    intro x hx
    rw [hs2, view_setDev_other _ hx]
  have hi2 : RInv sus (d :: B) s2 := by
    intro x hx
    have hxd : x ≠ d := fun hh => hx (by simp [hh])
    rw [hvo2 x hxd]
    exact hi1 x hx
  have hph' : (view s1 d).ph = (view s1 d).fin.flatMap (fun f => [.start f, .stop f]) := by
    rw [hv1.ph, hv1.fin, hph]; simp
  have hbeg' : (view s1 d).beg = (view s1 d).fin := by rw [hv1.beg, hv1.fin]; exact hbeg
  simp only
  split
  · simp [Tri, Benign]
  · split
    · rename_i hq
      rw [hdev2] at hq
      have hq : (s1.dev d).queue = [] := hq
      refine ⟨?_, ?_, ?_, ?_⟩
      · intro x hx
        by_cases hxd : x = d
        · subst hxd
          rw [hv2, hn, hm]
          exact ⟨fun _ => ⟨rfl, by simp [hq], hv1.txc, rfl⟩, fun h => absurd (hb1.symm.trans h) (by simp),
            fun _ => hch1, show (s1.dev x).queue.length ≤ (s1.dev x).cap by rw [hq1, hcap1]; exact hcap,
            by simp [hbeg'], by simp [hph']⟩
        · exact hi2 x (by simp [hxd, hx])
      · intro x hx
        have hxd : x ≠ d := fun hh => hd (hh ▸ hx)
        have h1 := hr1.1 x (by simp [hx])
        rw [hvo x hxd] at h1
        rwa [hvo2 x hxd]
      · intro x
        by_cases hxd : x = d
        · subst hxd
          rw [hv2]
          unfold VFifo
          simp only [hv1.beg, hv1.acc, hq1]
          exact Fifo.refl _ _
        · rw [hvo2 x hxd]
          have := hr1.2.1 x
          rwa [hvo x hxd] at this
      · intro x hx
        by_cases hxd : x = d
        · subst hxd
          rw [hv2]; exact hch1
        · rw [hvo2 x hxd]
          exact hr1.2.2 x (by rw [hvo x hxd]; exact hx)
    · rename_i p rest hq
      rw [hdev2] at hq
      have hq : (s1.dev d).queue = p :: rest := hq
      obtain ⟨s3, hs3⟩ : ∃ s3, s3 = s2.setDev d { s2.dev d with queue := rest } := ⟨_, rfl⟩
      have hv3 : view s3 d = { view s1 d with dev := { s1.dev d with cur := none, queue := rest } } := by
        rw [hs3, view_setDev_self, hv2, hdev2]
      have hvo3 : ∀ x, x ≠ d → view s3 x = view s1 x := by
        intro x hx
        rw [hs3, view_setDev_other _ hx, hvo2 x hx]
      have hi3 : RInv sus (d :: B) s3 := by
        intro x hx
        have hxd : x ≠ d := fun hh => hx (by simp [hh])
        rw [hvo3 x hxd]
        exact hi1 x hx
      refine Tri.bind (Q := fun s' => RInv sus (d :: B) s' ∧ RRel (d :: B) s3 s')
        (by subst hs3; exact hk .dequeue sus _ hi3) ?_
      rintro s3' ⟨hi3', hr3'⟩
      refine Tri.bind (SinksOk.fireB hk (h := .sniffer) rfl hi3' (fun x => view_emit rfl rfl rfl rfl)) ?_
      rintro s4 ⟨hi4, hr4'⟩
      have hr4 := hr3'.trans hr4'
      refine Tri.bind (SinksOk.fireB hk (h := .promiscSniffer) rfl hi4 (fun x => view_emit rfl rfl rfl rfl)) ?_
      rintro s5 ⟨hi5, hr5⟩
      have hr35 := hr4.trans hr5
      have hvd : PathKept (view s3 d) (view s5 d) := hr35.1 d (by simp)
      rw [hv3] at hvd
      have hq5 : (s5.dev d).queue = rest := hvd.queue
      have hcap5 : (s5.dev d).cap = (s1.dev d).cap := hvd.cap
      have hlen : rest.length ≤ (s1.dev d).cap := by
        rw [← hq1, hq, ← hcap1] at hcap; simp only [List.length_cons] at hcap; omega
      refine (start_tri (f := p) (dest := dest) (sus := sus) hk hd hi5 (hvd.busy.trans hb1) hvd.cur
        (hvd.txc.trans hv1.txc) hn (hr35.2.2 d (by rw [hv3]; exact hch1)) (by rw [hq5, hcap5]; exact hlen)
        (by rw [hvd.beg, hvd.fin]; exact hbeg') (by rw [hvd.ph, hvd.fin]; exact hph')).mono ?_
      rintro s' ⟨hi', hk', hf', hfd, hch'⟩
      refine ⟨hi', ?_, ?_, ?_⟩
      · intro x hx
        have hxd : x ≠ d := fun hh => hd (hh ▸ hx)
        have h1 := hr1.1 x (by simp [hx])
        have h2 := hr35.1 x (by simp [hx])
        rw [hvo x hxd] at h1
        rw [hvo3 x hxd] at h2
        exact (h1.trans h2).trans (hk' x hx)
      · intro x
        by_cases hxd : x = d
        · subst hxd
          rw [hvd.beg, hvd.acc, hq5] at hfd
          simp only [hv1.beg, hv1.acc] at hfd
          unfold VFifo
          rw [show (view s x).dev.queue = p :: rest from hq1.symm.trans hq]
          exact hfd
        · have h1 := hr1.2.1 x
          rw [hvo x hxd] at h1
          have h2 := hr35.2.1 x
          rw [hvo3 x hxd] at h2
          exact Fifo.trans (Fifo.trans h1 h2) (hf' x hxd)
      · intro x hx
        refine hch' x (hr35.2.2 x ?_)
        by_cases hxd : x = d
        · subst hxd
          rw [hv3]; exact hch1
        · rw [hvo3 x hxd]
          exact hr1.2.2 x (by rw [hvo x hxd]; exact hx)

/-- `Receive` when no hook is delicate. -/
theorem receive_tri {E : Env} {k : Sinks} {s : Sys} {d : DevId} {f : Bytes} {src : DevId} {rx : Power}
    {sus : List (DevId × Susp)} {B : List DevId} (hk : ∀ h, SinkOk sus B (k h)) (hi : RInv sus B s) :
    Tri (receiveK E k s d f src rx) (fun s' => RInv sus B s' ∧ RRel B s s') := by
  have fire : ∀ (h : Hook) (t : Sys) (e : Ev), RInv sus B t → (∀ x, view (t.emit e) x = view t x) →
      Tri (k h (t.emit e)) (fun s' => RInv sus B s' ∧ RRel B t s') := by
    intro h t e hi he
    refine (hk h _ (rinv_view hi fun x _ => he x)).mono ?_
    rintro s' ⟨h1, h2⟩
    exact ⟨h1, (rrel_view he).trans h2⟩
  have step : ∀ {t u : Sys} (h : Hook) (e : Ev), RRel B s t → RInv sus B t → (∀ x, view (t.emit e) x = view t x) →
      Tri (k h (t.emit e)) (fun s' => RInv sus B s' ∧ RRel B s s') := by
    intro t _ h e hr hi he
    refine (fire h t e hi he).mono ?_
    rintro s' ⟨h1, h2⟩
    exact ⟨h1, hr.trans h2⟩
  have hi0 : RInv sus B (s.emit (.recvCall d f src rx)) := rinv_view hi fun x _ => view_emit rfl rfl rfl rfl
  have hr0 : RRel B s (s.emit (.recvCall d f src rx)) := rrel_view fun x => view_emit rfl rfl rfl rfl
  unfold receiveK
  simp only
  split
  · exact step (u := s) _ _ hr0 hi0 (fun x => view_emit rfl rfl rfl rfl)
  · refine Tri.bind (step (u := s) _ _ hr0 hi0 (fun x => view_emit rfl rfl rfl rfl)) ?_
    rintro s1 ⟨hi1, hr1⟩
    split
    · exact step (u := s) _ _ hr1 hi1 (fun x => view_emit rfl rfl rfl rfl)
    · split
      · exact step (u := s) _ _ hr1 hi1 (fun x => view_emit rfl rfl rfl rfl)
      · cases hdec : decode E.fcs f with
        | fail e =>
          simp only [Outcome.fail_bind, Tri]
          rcases decode_fail hdec with rfl | rfl | rfl <;> simp [Benign]
        | ok r =>
          simp only [Outcome.ok_bind]
          cases r with
          | badFcs rest => exact step (u := s) _ _ hr1 hi1 (fun x => view_emit rfl rfl rfl rfl)
          | good p proto srcA dstA =>
            simp only
            refine Tri.bind (step (u := s) _ _ hr1 hi1 (fun x => view_emit rfl rfl rfl rfl)) ?_
            rintro s2 ⟨hi2, hr2⟩
            have tail : ∀ s3, RInv sus B s3 ∧ RRel B s s3 →
                Tri (if packetType dstA (s1.dev d).addr = .otherHost then .ok s3
                  else do
                    let s4 ← k .macRx (s3.emit (.macRx d f))
                    if (s4.dev d).rxCb then k .rxCallback (s4.emit (.rxCallback d p proto srcA))
                    else .fail .nullCallback) (fun s' => RInv sus B s' ∧ RRel B s s') := by
              rintro s3 ⟨hi3, hr3⟩
              split
              · exact ⟨hi3, hr3⟩
              · refine Tri.bind (step (u := s) _ _ hr3 hi3 (fun x => view_emit rfl rfl rfl rfl)) ?_
                rintro s4 ⟨hi4, hr4⟩
                split
                · exact step (u := s) _ _ hr4 hi4 (fun x => view_emit rfl rfl rfl rfl)
                · simp [Tri, Benign]
            split
            · refine Tri.bind (step (u := s) _ _ hr2 hi2 (fun x => view_emit rfl rfl rfl rfl)) ?_
              rintro t ⟨hit, hrt⟩
              exact Tri.bind (step (u := s) _ _ hrt hit (fun x => view_emit rfl rfl rfl rfl)) tail
            · exact tail s2 ⟨hi2, hr2⟩

/-! ### Reconfiguration -/

/-- A change of a device that leaves its transmit path alone. -/
theorem rset {sus : List (DevId × Susp)} {B : List DevId} {s : Sys} {d : DevId} {v : Dev} (hi : RInv sus B s)
    (hb : v.busy = (s.dev d).busy) (hc : v.cur = (s.dev d).cur) (hq : v.queue = (s.dev d).queue)
    (hcap : v.cap = (s.dev d).cap)
    (hl : d ∉ B → v.linkUp = true ∨ (s.dev d).busy = true → v.chan.isSome = true)
    (hm : (s.dev d).chan.isSome = true → v.chan.isSome = true) :
    RInv sus B (s.setDev d v) ∧ RRel B s (s.setDev d v) := by
  refine ⟨?_, ?_, ?_, ?_⟩
  · intro x hxB
    have h := hi x hxB
    by_cases hx : x = d
    · subst hx
      rw [view_setDev_self]
      refine ⟨?_, ?_, ?_, ?_, ?_, ?_⟩
      · simp only [hb, hc, hq]; exact h.ready
      · simp only [hb, hc]; exact h.busy
      · simp only [hb]; exact hl hxB
      · simp only [hq, hcap]; exact h.cap
      · simp only [hc]; exact h.beg
      · simp only [hc]; exact h.ph
    · rw [view_setDev_other _ hx]; exact h
  · intro x _
    by_cases hx : x = d
    · subst hx
      rw [view_setDev_self]
      exact ⟨hb, hc, hq, hcap, rfl, rfl, rfl, rfl, rfl⟩
    · rw [view_setDev_other _ hx]; exact PathKept.refl _
  · intro x
    by_cases hx : x = d
    · subst hx
      rw [view_setDev_self]
      unfold VFifo
      simp only [hq]
      exact Fifo.refl _ _
    · rw [view_setDev_other _ hx]; exact Fifo.refl _ _
  · intro x
    by_cases hx : x = d
    · subst hx
      rw [view_setDev_self]
      exact hm
    · rw [view_setDev_other _ hx]; exact id

theorem view_setChan (s : Sys) (c : ChanId) (v : Chan) (x : DevId) : view (s.setChan c v) x = view s x := rfl

/-- `Attach`, with connected code that behaves. -/
theorem attach_tri {k : Sinks} {s : Sys} {d : DevId} {c : ChanId} {sus : List (DevId × Susp)} {B : List DevId}
    (hk : ∀ h, SinkOk sus B (k h)) (hi : RInv sus B s) :
    Tri (attachK k s d c) (fun s' => RInv sus B s' ∧ RRel B s s') := by
  have up : ∀ ch' : Chan, Tri ((k .linkChange (((s.setChan c ch').setDev d
      { s.dev d with chan := some c, chanSlot := (s.chan c).link.length, linkUp := true }).emit (.linkChange d))) >>=
      fun s1 => .ok (s1.emit (.attachRet d c (s.chan c).link.length))) (fun s' => RInv sus B s' ∧ RRel B s s') := by
    intro ch'
    have hi0 : RInv sus B (s.setChan c ch') := rinv_view hi fun x _ => view_setChan _ _ _ _
    have h1 := rset (v := { s.dev d with chan := some c, chanSlot := (s.chan c).link.length, linkUp := true })
      (d := d) hi0 rfl rfl rfl rfl (fun _ _ => rfl) (fun _ => rfl)
    have hr1 : RRel B s _ := (rrel_view (s' := s.setChan c ch') fun x => view_setChan _ _ _ _).trans h1.2
    refine Tri.bind (hk .linkChange _ (rinv_view h1.1 fun x _ => view_emit rfl rfl rfl rfl)) ?_
    rintro s1 ⟨hi1, hr2⟩
    have he : ∀ x, view (s1.emit (.attachRet d c (s.chan c).link.length)) x = view s1 x :=
      fun x => view_emit rfl rfl rfl rfl
    exact ⟨rinv_view hi1 fun x _ => he x,
      ((hr1.trans (rrel_view fun x => view_emit rfl rfl rfl rfl)).trans hr2).trans (rrel_view he)⟩
  unfold attachK
  simp only
  split
  · exact up _
  · split
    · simp [Tri, Benign]
    · split <;> exact up _

/-- `Detach`, with connected code that behaves. -/
theorem detach_tri {k : Sinks} {its : Iters} {s : Sys} {c : ChanId} {slot : Nat} {sus : List (DevId × Susp)} {B : List DevId}
    (hk : ∀ h, SinkOk sus B (k h)) (hi : RInv sus B s) :
    Tri (detachK k its s c slot) (fun s' => RInv sus B s' ∧ RRel B s s') := by
  have base : ∀ s : Sys, RInv sus B s → Tri (baseDetachK k s c slot) (fun s' => RInv sus B s' ∧ RRel B s s') := by
    intro s hi
    have stay : RInv sus B (s.emit (.detachRet c slot false)) ∧ RRel B s (s.emit (.detachRet c slot false)) :=
      ⟨rinv_view hi fun x _ => view_emit rfl rfl rfl rfl, rrel_view fun x => view_emit rfl rfl rfl rfl⟩
    unfold baseDetachK
    split
    · exact stay
    · rename_i d _
      split
      · exact stay
      · have h1 := rset (v := { s.dev d with linkUp := false }) (d := d) hi rfl rfl rfl rfl
          (fun hd hh => (hi d hd).chan (Or.inr (show (s.dev d).busy = true by simpa using hh))) id
        refine Tri.bind (hk .linkChange _ (rinv_view h1.1 fun x _ => view_emit rfl rfl rfl rfl)) ?_
        rintro s1 ⟨hi1, hr2⟩
        have he : ∀ x, view (s1.emit (.detachRet c slot true)) x = view s1 x :=
          fun x => view_emit rfl rfl rfl rfl
        exact ⟨rinv_view hi1 fun x _ => he x,
          ((h1.2.trans (rrel_view fun x => view_emit rfl rfl rfl rfl)).trans hr2).trans (rrel_view he)⟩
  unfold detachK
  split
  · exact base s hi
  · split
    · simp [Tri, Benign]
    · simp only
      split
      · simp [Tri, Benign]
      refine (base _ (rinv_view hi fun x _ => view_setChan _ _ _ _)).mono ?_
      rintro s' ⟨h1, h2⟩
      exact ⟨h1, (rrel_view fun x => view_setChan _ _ _ _).trans h2⟩

/-- An operation that neither sends nor lets time pass, with connected code that behaves. -/
theorem conf_tri {E : Env} {k : Sinks} {its : Iters} {s : Sys} {op : Op} {sus : List (DevId × Susp)} {B : List DevId}
    (hop : Op.config op = true) (hk : ∀ h, SinkOk sus B (k h)) (hi : RInv sus B s) :
    Tri (confK E k its s op) (fun s' => RInv sus B s' ∧ RRel B s s') := by
  have setter : ∀ (d : DevId) (v : Dev), v.busy = (s.dev d).busy → v.cur = (s.dev d).cur →
      v.queue = (s.dev d).queue → v.cap = (s.dev d).cap → v.linkUp = (s.dev d).linkUp → v.chan = (s.dev d).chan →
      RInv sus B (s.setDev d v) ∧ RRel B s (s.setDev d v) := by
    intro d v h1 h2 h3 h4 h5 h6
    refine rset hi h1 h2 h3 h4 ?_ (by rw [h6]; exact id)
    intro hd
    rw [h5, h6]
    exact (hi d hd).chan
  cases op with
  | send d p dest proto => cases hop
  | run => cases hop
  | wait dt => cases hop
  | sendFrom d p src dest proto =>
    exact ⟨rinv_view hi fun x _ => view_emit rfl rfl rfl rfl, rrel_view fun x => view_emit rfl rfl rfl rfl⟩
  | attach d c => exact attach_tri hk hi
  | detach c slot => exact detach_tri hk hi
  | setAddress d a =>
    cases a with
    | other => simp [confK, step, Tri, Benign]
    | mac m => exact setter d _ rfl rfl rfl rfl rfl rfl
  | setSide d v => exact setter d _ rfl rfl rfl rfl rfl rfl
  | setRate d v => exact setter d _ rfl rfl rfl rfl rfl rfl
  | setGap d v => exact setter d _ rfl rfl rfl rfl rfl rfl
  | setMtu d v => exact setter d _ rfl rfl rfl rfl rfl rfl
  | setTxPower d v => exact setter d _ rfl rfl rfl rfl rfl rfl
  | setRxThreshold d v => exact setter d _ rfl rfl rfl rfl rfl rfl
  | setRxGain d v => exact setter d _ rfl rfl rfl rfl rfl rfl
  | setRxLoss d v => exact setter d _ rfl rfl rfl rfl rfl rfl
  | setPromisc d v => exact setter d _ rfl rfl rfl rfl rfl rfl

/-! ### Call trees -/

theorem blk_point (h : Hook) (d : DevId) (B : List DevId) : blk h.point d B = blk h d B := by cases h <;> rfl

mutual
theorem callOk_tri {E : Env} : ∀ (c : Call) (its : Iters) (B : List DevId) (sus : List (DevId × Susp)),
    callOk B c = true → SinkOk sus B (sendI E c its)
  | .mk d p dest proto sc, its, B, sus, h => by
    rw [callOk, Bool.and_eq_true] at h
    intro s hi
    rw [sendI]
    exact send_tri (fun hk sus' => scriptOk_tri sc its B d hk sus' h.2) (by simpa using h.1) hi
  | .conf op sc, its, B, sus, h => by
    rw [callOk, Bool.and_eq_true] at h
    intro s hi
    rw [sendI]
    exact conf_tri h.1 (fun hk => calmOk_tri sc its B hk sus h.2) hi
theorem scriptOk_tri {E : Env} : ∀ (sc : Script) (its : Iters) (B : List DevId) (d : DevId) (h : Hook)
    (sus : List (DevId × Susp)), scriptOk B d sc = true → SinkOk sus (blk h d B) (sinksI E h sc its)
  | .nil, its, B, d, h, sus, _ => by
    intro s hi
    rw [sinksI]
    exact ⟨hi, RRel.refl _ _⟩
  | .cons h' c rest, its, B, d, h, sus, hok => by
    rw [scriptOk, Bool.and_eq_true] at hok
    intro s hi
    rw [sinksI]
    split
    · rename_i heq
      have hc : callOk (blk h d B) c = true := by
        rw [← blk_point, ← heq]; exact hok.1
      refine Tri.bind (callOk_tri c (h.iters its) (blk h d B) sus hc s hi) ?_
      rintro s1 ⟨hi1, hr1⟩
      refine (scriptOk_tri rest its B d h sus hok.2 s1 hi1).mono ?_
      rintro s2 ⟨hi2, hr2⟩
      exact ⟨hi2, hr1.trans hr2⟩
    · exact scriptOk_tri rest its B d h sus hok.2 s hi
theorem calmOk_tri {E : Env} : ∀ (sc : Script) (its : Iters) (B : List DevId) (h : Hook) (sus : List (DevId × Susp)),
    calmOk B sc = true → SinkOk sus B (sinksI E h sc its)
  | .nil, its, B, h, sus, _ => by
    intro s hi
    rw [sinksI]
    exact ⟨hi, RRel.refl _ _⟩
  | .cons h' c rest, its, B, h, sus, hok => by
    rw [calmOk, Bool.and_eq_true] at hok
    intro s hi
    rw [sinksI]
    split
    · refine Tri.bind (callOk_tri c (h.iters its) B sus hok.1 s hi) ?_
      rintro s1 ⟨hi1, hr1⟩
      refine (calmOk_tri rest its B h sus hok.2 s1 hi1).mono ?_
      rintro s2 ⟨hi2, hr2⟩
      exact ⟨hi2, hr1.trans hr2⟩
    · exact calmOk_tri rest its B h sus hok.2 s hi
end

/-! ### Without connected code the functions are those of Model/Net -/

theorem setDev_emit_setDev (s : Sys) (d : DevId) (v w : Dev) (e : Ev) :
    ((s.setDev d v).emit e).setDev d w = (s.setDev d w).emit e := by
  simp only [Sys.setDev, Sys.emit, Sys.mk.injEq, and_true]
  funext x
  by_cases hx : x = d <;> simp [hx]

theorem dev_emit_setDev (s : Sys) (d : DevId) (v : Dev) (e : Ev) : ((s.setDev d v).emit e).dev d = v := by
  simp [Sys.setDev, Sys.emit]

theorem deliverK_plain (E : Env) (s : Sys) (c : ChanId) (f : Bytes) (src dst : DevId) (t : Time) :
    deliverK E (fun t => .ok t) s c f src dst t = deliver E s c f src dst t := by
  unfold deliverK
  cases deliver E s c f src dst t with
  | fail e => rfl
  | ok r => obtain ⟨s', b⟩ := r; cases b <;> rfl

theorem deliver_chan {E : Env} {s s' : Sys} {c : ChanId} {f : Bytes} {src dst : DevId} {t : Time} {b : Bool}
    (h : deliver E s c f src dst t = .ok (s', b)) : s'.chan = s.chan := by
  obtain ⟨rfl, _⟩ := deliver_ok h; rfl

/-- No code is connected to the trace source of the channels. -/
def QuietChan (k : Sinks) : Prop := (∀ i t, k (.txrx i) t = .ok t) ∧ ∀ c a i t, k (.txrxAt c a i) t = .ok t

theorem leoLoopK_plain {E : Env} {k : Sinks} (hk : QuietChan k) {c : ChanId} {g : Bool} {f : Bytes} {src : DevId} {t : Time} (n : Nat) :
    ∀ (i : Nat) (rest : List (Mac48 × DevId)) (s : Sys) (r : Bool), rest.length ≤ n →
    leoLoopK E k c g f src t n i rest s r = deliverAll E c f src t (rest.map (·.2)) s r := by
  induction n with
  | zero =>
    intro i rest s r hn
    cases rest with
    | nil => rfl
    | cons => simp at hn
  | succ n ih =>
    intro i rest s r hn
    cases rest with
    | nil => rfl
    | cons x rest =>
      obtain ⟨a, d⟩ := x
      rw [leoLoopK, show k (.txrxAt c a i) = fun t => .ok t from funext (hk.2 c a i), deliverK_plain]
      simp only [List.map_cons, deliverAll]
      cases hd : deliver E s c f src d t with
      | fail e => rfl
      | ok r' =>
        obtain ⟨s', b⟩ := r'
        simp only [Outcome.ok_bind]
        rw [deliver_chan hd, restAfter, if_pos rfl]
        exact ih _ _ _ _ (by simpa using hn)

theorem islLoopK_plain {E : Env} {k : Sinks} (hk : QuietChan k) {c : ChanId} {f : Bytes} {src : DevId} {slot : Nat} {t : Time} (n : Nat) :
    ∀ (i : Nat) (s : Sys), (s.chan c).link.length ≤ n + i →
    islLoopK E k c f src slot t n i s = deliverOthers E c f src slot t ((s.chan c).link.drop i) i s := by
  induction n with
  | zero =>
    intro i s hn
    rw [islLoopK, List.getElem?_eq_none (by omega), List.drop_eq_nil_of_le (by omega)]
    rfl
  | succ n ih =>
    intro i s hn
    rw [islLoopK]
    cases hl : (s.chan c).link[i]? with
    | none =>
      rw [List.drop_eq_nil_of_le (List.getElem?_eq_none_iff.mp hl)]
      rfl
    | some d =>
      obtain ⟨hlt, hd⟩ := List.getElem?_eq_some_iff.mp hl
      rw [List.drop_eq_getElem_cons hlt, hd]
      simp only [deliverOthers]
      split
      · exact ih _ _ (by omega)
      · rw [show k (.txrx i) = fun t => .ok t from funext (hk.1 i), deliverK_plain]
        cases hx : deliver E s c f src d t with
        | fail e => rfl
        | ok r' =>
          obtain ⟨s', b⟩ := r'
          simp only [Outcome.ok_bind]
          have hc := deliver_chan hx
          rw [ih _ _ (by rw [hc]; omega), hc]

theorem chanTransmitK_plain (E : Env) {k : Sinks} (hk : QuietChan k) (s : Sys) (c : ChanId) (f : Bytes) (slot : Nat)
    (dest : Addr) (t : Time) : chanTransmitK E k s c f slot dest t = chanTransmit E s c f slot dest t := by
  unfold chanTransmitK chanTransmit leoTransmitK leoTransmit islTransmitK islTransmit
  have h1 : ∀ g src rest (n : Nat), leoLoopK E k c g f src t (rest.length + n) 0 rest s false =
      deliverAll E c f src t (rest.map (·.2)) s false := fun g src rest n => leoLoopK_plain hk _ _ _ _ _ (by omega)
  have h2 : ∀ src (n : Nat), islLoopK E k c f src slot t ((s.chan c).link.length + n) 0 s =
      deliverOthers E c f src slot t (s.chan c).link 0 s := fun src n => by
    rw [islLoopK_plain hk _ _ _ (by omega), List.drop_zero]
  simp only [h1, h2, show k (.txrx 0) = fun t => .ok t from funext (hk.1 0), deliverK_plain]
  rfl

theorem quietChan_plain : QuietChan (fun _ t => .ok t) := ⟨fun _ _ => rfl, fun _ _ _ _ => rfl⟩

theorem transmitStartK_plain (E : Env) (s : Sys) (d : DevId) (f : Bytes) (dest : Addr) :
    transmitStartK E (fun _ t => .ok t) s d f dest = transmitStart E s d f dest := by
  unfold transmitStartK transmitStart
  simp only [Outcome.ok_bind, dev_emit_setDev, chanTransmitK_plain E quietChan_plain]
  cases hc : (s.dev d).chan <;> rfl

theorem transmitCompleteK_plain (E : Env) (s : Sys) (d : DevId) (dest : Addr) :
    transmitCompleteK E (fun _ t => .ok t) s d dest = transmitComplete E s d dest := by
  unfold transmitCompleteK transmitComplete
  simp only [Outcome.ok_bind, dev_emit_setDev, setDev_emit_setDev, transmitStartK_plain]
  cases hb : (s.dev d).busy <;> simp only [Bool.not_false, Bool.not_true, if_true, Bool.false_eq_true, if_false]
  cases hc : (s.dev d).cur <;> simp only
  cases hq : (s.dev d).queue <;> rfl

theorem sendK_plain (E : Env) (s : Sys) (d : DevId) (p : Bytes) (dest : Addr) (proto : UInt16) :
    sendK E (fun _ t => .ok t) s d p dest proto = send E s d p dest proto := by
  unfold sendK send sendStartK
  have h1 : ∀ (e : Ev), (s.emit e).dev = s.dev := fun _ => rfl
  have h2 : ∀ (t : Sys) (v w : Dev), (t.setDev d v).setDev d w = t.setDev d w := by
    intro t v w
    simp only [Sys.setDev, Sys.mk.injEq, and_true]
    funext x
    by_cases hx : x = d <;> simp [hx]
  have h3 : ∀ (t : Sys) (v : Dev), (t.setDev d v).dev d = v := fun t v => by simp [Sys.setDev]
  simp only [Outcome.ok_bind, transmitStartK_plain, h1, h2, h3]
  cases hb : (s.dev d).busy <;> cases hq : (s.dev d).queue <;> rfl

theorem receiveK_plain (E : Env) (s : Sys) (d : DevId) (f : Bytes) (src : DevId) (rx : Power) :
    receiveK E (fun _ t => .ok t) s d f src rx = receive E s d f src rx := by
  unfold receiveK receive
  simp only [Outcome.ok_bind]
  have h1 : ∀ (t : Sys) (e : Ev), (t.emit e).dev = t.dev := fun _ _ => rfl
  simp only [h1]
  split
  · rfl
  · split
    · rfl
    · split
      · rfl
      · congr 1
        funext r
        cases r with
        | badFcs rest => rfl
        | good p proto a b =>
          simp only
          cases hp : (s.dev d).promiscCb <;> cases hr : (s.dev d).rxCb <;> rfl

theorem sinksI_nil (E : Env) (its : Iters) :
    (fun h t => sinksI E h .nil its t) = (fun (_ : Hook) (t : Sys) => Outcome.ok t) := by
  funext h t; rw [sinksI]

theorem sinksR_nil (E : Env) : (fun h t => sinksR E h .nil t) = (fun (_ : Hook) (t : Sys) => Outcome.ok t) :=
  sinksI_nil E []

theorem sendR_mk (E : Env) (s : Sys) (d : DevId) (p : Bytes) (dest : Addr) (proto : UInt16) (sc : Script) :
    sendR E (.mk d p dest proto sc) s = sendK E (fun h t => sinksR E h sc t) s d p dest proto := by
  rw [sendR, sendI]; rfl

theorem sendR_conf (E : Env) (s : Sys) (op : Op) (sc : Script) :
    sendR E (.conf op sc) s = confK E (fun h t => sinksR E h sc t) [] s op := by
  rw [sendR, sendI]; rfl

theorem sendR_nil (E : Env) (s : Sys) (d : DevId) (p : Bytes) (dest : Addr) (proto : UInt16) :
    sendR E (.mk d p dest proto .nil) s = send E s d p dest proto := by
  rw [sendR_mk, sinksR_nil, sendK_plain]

theorem attachK_plain (s : Sys) (d : DevId) (c : ChanId) : attachK (fun _ t => .ok t) s d c = attach s d c := by
  unfold attachK attach
  rfl

theorem detachK_plain (s : Sys) (c : ChanId) (slot : Nat) : detachK (fun _ t => .ok t) [] s c slot = detach s c slot := by
  have base : ∀ s : Sys, baseDetachK (fun _ t => .ok t) s c slot =
      .ok ((baseDetach s c slot).1.emit (.detachRet c slot (baseDetach s c slot).2)) := by
    intro s
    unfold baseDetachK baseDetach
    cases (s.chan c).link[slot]? with
    | none => rfl
    | some d => cases h : (s.dev d).linkUp <;> simp [h]
  unfold detachK detach
  cases (s.chan c).kind with
  | isl => exact base s
  | leo =>
    cases (s.chan c).link[slot]? with
    | none => rfl
    | some d => exact base _

theorem confK_plain (E : Env) (s : Sys) (op : Op) : confK E (fun _ t => .ok t) [] s op = step E s op := by
  cases op with
  | attach d c => exact attachK_plain s d c
  | detach c slot => exact detachK_plain s c slot
  | _ => rfl

theorem conf_nil (E : Env) (s : Sys) (op : Op) : sendR E (.conf op .nil) s = step E s op := by
  rw [sendR_conf, sinksR_nil, confK_plain]

theorem runR_nil (E : Env) (s : Sys) : runR E .nil s = run E s := by
  unfold runR run
  rw [sinksR_nil]
  cases s.pending with
  | nil => rfl
  | cons p ps =>
    obtain ⟨t, a⟩ := p
    cases a with
    | txComplete d dest => exact transmitCompleteK_plain _ _ _ _
    | receive d f src rx => exact receiveK_plain _ _ _ _ _ _

/-! ### Histories -/

/-- What an operation does to the system. -/
def Grows (s s' : Sys) : Prop := ∀ x, VFifo (view s x) (view s' x)

theorem rinv_initial {s : Sys} (h : Initial s) : RInv [] [] s := by
  intro x _
  obtain ⟨h1, h2, h3, h4, h5⟩ := h.idle x
  exact ⟨fun _ => ⟨h2, by simp [view, h3], by simp [view, h.pending, txc], rfl⟩, fun hb => absurd (h1.symm.trans hb) (by simp),
    fun hh => hh.elim (fun hl => absurd (h4.symm.trans hl) (by simp)) (fun hl => absurd (h1.symm.trans hl) (by simp)),
    by simp [view, h3], by simp [view, h.log, h2, begun, ended], by simp [view, h.log, h2, phases, ended]⟩

theorem runR_tri {E : Env} {s : Sys} {sc : Script} (hi : RInv [] [] s) (hok : opOk s (.run sc) = true) :
    Tri (runR E sc s) (fun s' => RInv [] [] s' ∧ Grows s s') := by
  unfold runR
  cases hp : s.pending with
  | nil => exact ⟨hi, fun x => Fifo.refl _ _⟩
  | cons p ps =>
    obtain ⟨t, a⟩ := p
    cases a with
    | receive d f src rx =>
      simp only [opOk, hp] at hok
      have hv : ∀ x, view { s with now := t, pending := ps } x = view s x := by
        intro x
        simp [view, hp, txc]
      refine (receive_tri (fun h => calmOk_tri sc [] [] h [] hok) (rinv_view hi fun x _ => hv x)).mono ?_
      rintro s' ⟨h1, h2⟩
      refine ⟨h1, fun x => ?_⟩
      have := h2.2.1 x
      rwa [hv x] at this
    | txComplete d dest =>
      simp only [opOk, hp] at hok
      have hd := hi d (by simp)
      have htx : (view s d).txc = (t, dest) :: txc d ps := by simp [view, hp, txc]
      have hb : (s.dev d).busy = true := by
        cases hb : (s.dev d).busy with
        | true => rfl
        | false => rw [(hd.ready hb).2.2.1] at htx; cases htx
      obtain ⟨hc, hlen⟩ := hd.busy hb
      rw [htx] at hlen
      simp only [List.length_cons, List.count_nil] at hlen
      obtain ⟨f, hf⟩ := Option.isSome_iff_exists.mp hc
      have hf' : (s.dev d).cur = some f := hf
      have hvo : ∀ x, x ≠ d → view { s with now := t, pending := ps } x = view s x := by
        intro x hx
        have hx' : ¬ d = x := fun hh => hx hh.symm
        simp [view, hp, txc, hx']
      have hbeg := hd.beg
      have hph := hd.ph
      simp only [view, hf'] at hbeg hph
      refine (complete_tri (s := { s with now := t, pending := ps }) (B := []) (sus := []) (f := f) (fun h sus => scriptOk_tri sc [] [] d h sus hok) (by simp) ?_ (by simp)
        hb hf (show txc d ps = [] from List.length_eq_zero_iff.mp (by omega)) (by simp) (hd.chan (Or.inr hb)) hd.cap hbeg hph).mono ?_
      · intro x hx
        have hxd : x ≠ d := fun hh => hx (by simp [hh])
        rw [hvo x hxd]
        exact hi x (by simp)
      · rintro s' ⟨h1, h2⟩
        refine ⟨h1, fun x => ?_⟩
        have := h2.2.1 x
        by_cases hx : x = d
        · subst hx; exact this
        · rwa [hvo x hx] at this

theorem stepR_tri {E : Env} {s : Sys} {op : ROp} (hi : RInv [] [] s) (hok : opOk s op = true) :
    Tri (stepR E s op) (fun s' => RInv [] [] s' ∧ Grows s s') := by
  have same : ∀ s', (∀ x, view s' x = view s x) → RInv [] [] s' ∧ Grows s s' := fun s' hv =>
    ⟨rinv_view hi fun x _ => hv x, fun x => by rw [hv x]; exact Fifo.refl _ _⟩
  have call : ∀ c, callOk [] c = true → Tri (sendR E c s) (fun s' => RInv [] [] s' ∧ Grows s s') := fun c h =>
    (callOk_tri c [] [] [] h s hi).mono fun s' h => ⟨h.1, h.2.2.1⟩
  have conf : ∀ op, Op.config op = true → Tri (step E s op) (fun s' => RInv [] [] s' ∧ Grows s s') := by
    intro op h
    rw [← conf_nil]
    exact call _ (by simp [callOk, calmOk, h])
  cases op with
  | call c => exact call c hok
  | run sc => exact runR_tri hi hok
  | plain op =>
    cases op with
    | send d p dest proto =>
      have h := call (.mk d p dest proto .nil) rfl
      rw [sendR_nil] at h
      exact h
    | run =>
      have h := runR_tri (E := E) (sc := .nil) hi (by
        cases hp : s.pending with
        | nil => simp [opOk, hp]
        | cons p ps => obtain ⟨t, a⟩ := p; cases a <;> simp [opOk, hp, scriptOk, calmOk])
      rw [runR_nil] at h
      exact h
    | wait dt =>
      simp only [stepR, step]
      split
      · exact same _ fun x => rfl
      · exact same _ fun x => rfl
    | _ => rw [stepR]; exact conf _ (by rfl)

theorem execR_tri {E : Env} {ops : List ROp} {s : Sys} (hi : RInv [] [] s) (hok : HistOk E s ops) :
    Tri (execR E s ops) (fun s' => RInv [] [] s' ∧ Grows s s') := by
  induction ops generalizing s with
  | nil => exact ⟨hi, fun x => Fifo.refl _ _⟩
  | cons op ops ih =>
    simp only [execR]
    have h0 := hok [] op ops s rfl rfl
    have h1 := stepR_tri (E := E) hi h0
    cases hs : stepR E s op with
    | fail e => rw [hs] at h1; exact h1
    | ok s1 =>
      rw [hs] at h1
      refine (ih h1.1 ?_).mono ?_
      · intro pre op' post s' hpre hex
        refine hok (op :: pre) op' post s' (by simp [hpre]) ?_
        simp [execR, hs, hex]
      · rintro s' ⟨h2, h3⟩
        exact ⟨h2, fun x => Fifo.trans (h1.2 x) (h3 x)⟩

/-! ### Calls that end in an assertion -/

theorem sinksR_other (E : Env) (h h' : Hook) (c : Call) (s : Sys) (hne : h' ≠ h.point) :
    sinksR E h (.cons h' c .nil) s = .ok s := by
  rw [sinksR, sinksI, if_neg hne, sinksI]

theorem sinksR_self (E : Env) (h : Hook) (c : Call) (s : Sys) (hp : h.point = h) :
    sinksR E h (.cons h c .nil) s = sendR E c s := by
  have hi : h.iters [] = [] := by cases h <;> first | rfl | cases hp
  rw [sinksR, sinksI, if_pos hp.symm, hi, sendR]
  cases sendI E c [] s with
  | ok s' => simp only [Outcome.ok_bind, sinksI]
  | fail e => rfl

/-- A successful `Send` without nested calls on an idle device whose queue has room leaves it busy, and
the queue as long as it was. -/
theorem send_idle_busy {E : Env} {s s' : Sys} {d : DevId} {p : Bytes} {dest : Addr} {proto : UInt16}
    (h : send E s d p dest proto = .ok s') (hl : (s.dev d).linkUp = true)
    (hcap : (s.dev d).queue.length < (s.dev d).cap) (hb : (s.dev d).busy = false) :
    (s'.dev d).busy = true ∧ (s'.dev d).queue.length = (s.dev d).queue.length ∧
      (s'.dev d).hasQueue = (s.dev d).hasQueue ∧ ∃ t ∈ s'.pending, t.act = .txComplete d dest := by
  rcases send_ok h with ⟨h1, _⟩ | ⟨_, _, m, _, f, _, hcase⟩
  · rw [hl] at h1; cases h1
  · rcases hcase with ⟨h1, _⟩ | ⟨_, h1, _⟩ | ⟨_, _, g, rest, s3, hq, hts, rfl⟩
    · exact absurd hcap h1
    · rw [hb] at h1; cases h1
    · obtain ⟨_, c, src, rs, b, _, _, _, rfl⟩ := transmitStart_ok hts
      have hlen := congrArg List.length hq
      simp only [List.length_append, List.length_cons, List.length_nil, Nat.zero_add, Nat.add_right_cancel_iff] at hlen
      refine ⟨by simp [txState], by simp [txState, hlen], by simp [txState], ?_⟩
      simp only [txState]
      exact ⟨_, mem_insertAll.mpr (Or.inr (mem_insertPending.mpr (Or.inl rfl))), rfl⟩

/-- The hooks at which a frame has left the queue and has not been started. -/
def Hook.between (h : Hook) : Prop := h = .dequeue ∨ h = .sniffer ∨ h = .promiscSniffer

/-- A nested `Send` at one of these hooks leaves the device busy. -/
theorem nested_busy {E : Env} {t t' : Sys} {d : DevId} {p' : Bytes} {dest' : Addr} {proto' : UInt16} {h : Hook}
    (hp : h.point = h)
    (hl : (t.dev d).linkUp = true) (hb : (t.dev d).busy = false) (hq : (t.dev d).queue.length < (t.dev d).cap)
    (h' : sinksR E h (.cons h (.mk d p' dest' proto' .nil) .nil) t = .ok t') : (t'.dev d).busy = true := by
  rw [sinksR_self _ _ _ _ hp, sendR_nil] at h'
  exact (send_idle_busy h' hl hq hb).1

theorem start_busy {E : Env} {k : Sinks} {t t' : Sys} {d : DevId} {g : Bytes} {a : Addr}
    (hb : (t.dev d).busy = true) (h : transmitStartK E k t d g a = .ok t') : False := by
  rw [transmitStartK, if_pos hb] at h
  cases h

/-- A call of `TransmitStart` before which connected code has called `Send` on the device does not
return (`Send`, with Sniffer after PromiscSniffer). -/
theorem between_send {E : Env} {t t' : Sys} {d : DevId} {g : Bytes} {a : Addr} {p' : Bytes} {dest' : Addr}
    {proto' : UInt16} {h : Hook} (hh : h.between)
    (hl : (t.dev d).linkUp = true) (hb : (t.dev d).busy = false) (hq : (t.dev d).queue.length < (t.dev d).cap)
    (k : Sinks) (hk : k = fun h1 t => sinksR E h1 (.cons h (.mk d p' dest' proto' .nil) .nil) t) :
    ((do
      let s1 ← k .dequeue t
      let s2 ← k .promiscSniffer (s1.emit (.promiscSniffer d g))
      let s3 ← k .sniffer (s2.emit (.sniffer d g))
      transmitStartK E k s3 d g a) = .ok t' → False) ∧
    ((do
      let s1 ← k .dequeue t
      let s2 ← k .sniffer (s1.emit (.sniffer d g))
      let s3 ← k .promiscSniffer (s2.emit (.promiscSniffer d g))
      transmitStartK E k s3 d g a) = .ok t' → False) := by
  constructor <;>
  · intro ho
    rw [Outcome.bind_eq_ok] at ho
    obtain ⟨s1, h1, ho⟩ := ho
    rw [Outcome.bind_eq_ok] at ho
    obtain ⟨s2, h2, ho⟩ := ho
    rw [Outcome.bind_eq_ok] at ho
    obtain ⟨s3, h3, ho⟩ := ho
    refine start_busy ?_ ho
    simp only [hk] at h1 h2 h3
    rcases hh with rfl | rfl | rfl
    · rw [sinksR_other _ _ _ _ _ (by simp [Hook.point])] at h2 h3
      injection h2 with h2
      injection h3 with h3
      rw [← h3, ← h2]
      have := nested_busy rfl hl hb hq h1
      exact this
    all_goals
      rw [sinksR_other _ _ _ _ _ (by simp [Hook.point])] at h1
      injection h1 with h1
      first
        | rw [sinksR_other _ _ _ _ _ (by simp [Hook.point])] at h2
          injection h2 with h2
          refine nested_busy rfl ?_ ?_ ?_ h3 <;> rw [← h2, ← h1] <;> simpa [Sys.emit]
        | rw [sinksR_other _ _ _ _ _ (by simp [Hook.point])] at h3
          injection h3 with h3
          rw [← h3]
          show (s2.dev d).busy = true
          refine nested_busy rfl ?_ ?_ ?_ h2 <;> rw [← h1] <;> simpa [Sys.emit]

/-- A `Send` on an idle device during which code connected to the Dequeue trace of the queue or to a sniffer
calls `Send` on the same device never returns. -/
theorem sniffer_reentry {E : Env} {s : Sys} {d : DevId} {p p' : Bytes} {dest dest' : Addr} {proto proto' : UInt16}
    {h : Hook} (hh : h.between) (hi : RInv [] [] s)
    (hl : (s.dev d).linkUp = true) (hb : (s.dev d).busy = false) (hcap : 0 < (s.dev d).cap) :
    ∃ e, sendR E (.mk d p dest proto (.cons h (.mk d p' dest' proto' .nil) .nil)) s = .fail e := by
  have hq : (s.dev d).queue = [] := ((hi d (by simp)).ready hb).2.1.mpr rfl
  cases ho : sendR E (.mk d p dest proto (.cons h (.mk d p' dest' proto' .nil) .nil)) s with
  | fail e => exact ⟨e, rfl⟩
  | ok s' =>
    exfalso
    rw [sendR_mk, sendK.eq_def, if_neg (by simp [hl])] at ho
    cases dest with
    | other => cases ho
    | mac m =>
      simp only at ho
      have hm : ∀ t, sinksR E .macTx (.cons h (.mk d p' dest' proto' .nil) .nil) t = .ok t := by
        intro t; apply sinksR_other; rcases hh with rfl | rfl | rfl <;> simp [Hook.point]
      have hn : ∀ t, sinksR E .enqueue (.cons h (.mk d p' dest' proto' .nil) .nil) t = .ok t := by
        intro t; apply sinksR_other; rcases hh with rfl | rfl | rfl <;> simp [Hook.point]
      rw [hm, Outcome.ok_bind] at ho
      have hdv : ∀ e : Ev, (s.emit e).dev d = s.dev d := fun _ => rfl
      simp only [hdv, hq, List.length_nil, hcap, if_true, List.nil_append, hn, Outcome.ok_bind] at ho
      split at ho
      · cases ho
      · generalize addHeader E.fcs p (s.dev d).addr m proto = f at ho
        rw [Outcome.bind_eq_ok] at ho
        obtain ⟨s3, h3, _⟩ := ho
        have h3' : ∀ (t : Sys) (v : Dev), (t.setDev d v).dev d = v := fun t v => by simp [Sys.setDev]
        unfold sendStartK at h3
        simp only [h3', hb, Bool.not_false, if_true] at h3
        exact (between_send hh (by rw [h3']; exact hl) (by rw [h3']) (by rw [h3']; exact hcap) _ rfl).1 h3

/-- A completion that finds a frame waiting and during which code connected to the Dequeue trace of the
queue or to a sniffer calls `Send` on the same device never returns. -/
theorem complete_reentry {E : Env} {s : Sys} {d : DevId} {dest : Addr} {p' : Bytes} {dest' : Addr}
    {proto' : UInt16} {h : Hook} (hh : h.between) (hl : (s.dev d).linkUp = true) (hq : (s.dev d).queue ≠ [])
    (hcap : (s.dev d).queue.length ≤ (s.dev d).cap) :
    ∃ e, transmitCompleteK E (fun h1 t => sinksR E h1 (.cons h (.mk d p' dest' proto' .nil) .nil) t) s d dest
      = .fail e := by
  cases ho : transmitCompleteK E (fun h1 t => sinksR E h1 (.cons h (.mk d p' dest' proto' .nil) .nil) t) s d dest with
  | fail e => exact ⟨e, rfl⟩
  | ok s' =>
    exfalso
    unfold transmitCompleteK at ho
    split at ho
    · cases ho
    · split at ho
      · cases ho
      · have hm : ∀ t, sinksR E .phyTxEnd (.cons h (.mk d p' dest' proto' .nil) .nil) t = .ok t := by
          intro t; apply sinksR_other; rcases hh with rfl | rfl | rfl <;> simp [Hook.point]
        simp only [hm, Outcome.ok_bind] at ho
        simp only [dev_emit_setDev, setDev_emit_setDev] at ho
        split at ho
        · cases ho
        · split at ho
          · rename_i h5; exact hq h5
          · rename_i g rest h5
            rw [h5] at hcap
            refine (between_send hh ?_ ?_ ?_ _ rfl).2 ho
            · rw [dev_emit_setDev]; exact hl
            · rw [dev_emit_setDev]
            · rw [dev_emit_setDev]; exact hcap

/-- A completion during which code connected to PhyTxEnd calls `Send` on the same device either does not
return or leaves the device busy without a current packet. -/
theorem phyTxEnd_reentry {E : Env} {s s' : Sys} {d : DevId} {dest : Addr} {p' : Bytes} {dest' : Addr}
    {proto' : UInt16} {f : Bytes} (hb : (s.dev d).busy = true) (hc : (s.dev d).cur = some f)
    (hl : (s.dev d).linkUp = true) (hcap : (s.dev d).queue.length < (s.dev d).cap)
    (h : transmitCompleteK E (fun h t => sinksR E h (.cons .phyTxEnd (.mk d p' dest' proto' .nil) .nil) t)
      s d dest = .ok s') :
    (s'.dev d).busy = true ∧ (s'.dev d).cur = none ∧ ∃ t ∈ s'.pending, t.act = .txComplete d dest' := by
  rw [transmitCompleteK, if_neg (by simp [hb])] at h
  split at h
  · rename_i hcc; rw [hc] at hcc; cases hcc
  · rename_i f' hcc
    rw [sinksR_self _ _ _ _ rfl, sendR_nil, Outcome.bind_eq_ok] at h
    obtain ⟨s1, h1, h⟩ := h
    obtain ⟨hb1, hq1, hh1, hp1⟩ := send_idle_busy h1 (by rw [dev_emit_setDev]; exact hl)
      (by rw [dev_emit_setDev]; exact hcap) (by rw [dev_emit_setDev])
    have hdev : (s1.setDev d { s1.dev d with cur := none }).dev d = { s1.dev d with cur := none } := by
      simp [Sys.setDev]
    simp only [hdev] at h
    split at h
    · cases h
    · split at h
      · injection h with h
        subst h
        exact ⟨by rw [hdev]; exact hb1, by rw [hdev], hp1⟩
      · exfalso
        rw [sinksR_other _ _ _ _ _ (by simp [Hook.point]), Outcome.ok_bind, sinksR_other _ _ _ _ _ (by simp [Hook.point]), Outcome.ok_bind,
          sinksR_other _ _ _ _ _ (by simp [Hook.point]), Outcome.ok_bind, transmitStartK, if_pos] at h
        · cases h
        · simpa [Sys.emit, Sys.setDev] using hb1

/-! ### Forwarding from the receive callback -/

/-- A call during which connected code makes no calls, as an operation of Model/Net. -/
def Call.op : Call → Op
  | .mk d p dest proto _ => .send d p dest proto
  | .conf op _ => op

theorem leaf_step {E : Env} {c : Call} (h : leaf c = true) (s : Sys) : sendR E c s = step E s c.op := by
  cases c with
  | mk d p dest proto sc =>
    cases sc with
    | cons => cases h
    | nil => exact sendR_nil _ _ _ _ _ _
  | conf op sc =>
    cases sc with
    | cons => cases h
    | nil => exact conf_nil _ _ _

/-- The calls of a script, as operations of Model/Net. -/
def Script.ops : Script → List Op
  | .nil => []
  | .cons _ c rest => c.op :: rest.ops

theorem sinksR_leaf {E : Env} (sc : Script) (h : Hook) (s : Sys) (hsc : forwardScript sc = true) :
    sinksR E h sc s = if h = .rxCallback then exec E s sc.ops else .ok s := by
  match sc with
  | .nil => rw [sinksR, sinksI]; simp [Script.ops, exec]
  | .cons h' c rest =>
    rw [forwardScript] at hsc
    simp only [Bool.and_eq_true, decide_eq_true_eq] at hsc
    obtain ⟨⟨rfl, hl⟩, hr⟩ := hsc
    rw [sinksR, sinksI]
    by_cases hh : h = .rxCallback
    · subst hh
      rw [if_pos (show Hook.rxCallback = Hook.rxCallback.point from rfl), if_pos rfl, show sendI E c (Hook.rxCallback.iters []) s = sendR E c s from rfl, leaf_step hl]
      simp only [Script.ops, exec]
      congr 1
      funext t
      have := sinksR_leaf (E := E) rest .rxCallback t hr
      rw [if_pos rfl] at this
      exact this
    · rw [if_neg (fun hx => hh (by cases h <;> first | rfl | cases hx)), if_neg hh]
      have := sinksR_leaf (E := E) rest h s hr
      rw [if_neg hh] at this
      exact this

theorem receiveK_leaf {E : Env} {k : Sinks} {s : Sys} {d : DevId} {f : Bytes} {src : DevId} {rx : Power}
    {g : Sys → Outcome Sys} (hk : k = fun h t => if h = .rxCallback then g t else .ok t) :
    receiveK E k s d f src rx = receive E s d f src rx ∨
      receiveK E k s d f src rx = (receive E s d f src rx >>= g) := by
  subst hk
  unfold receiveK receive
  simp only [reduceCtorEq, if_false, if_true, Outcome.ok_bind]
  have h1 : ∀ (t : Sys) (e : Ev), (t.emit e).dev = t.dev := fun _ _ => rfl
  simp only [h1]
  split
  · exact Or.inl rfl
  · split
    · exact Or.inl rfl
    · split
      · exact Or.inl rfl
      · cases decode E.fcs f with
        | fail e => exact Or.inl rfl
        | ok r =>
          simp only [Outcome.ok_bind]
          cases r with
          | badFcs rest => exact Or.inl rfl
          | good p proto a b =>
            simp only
            cases hp : (s.dev d).promiscCb <;> cases hr : (s.dev d).rxCb <;>
              by_cases hty : packetType b (s.dev d).addr = .otherHost <;> simp [hty]

theorem runR_leaf {E : Env} {sc : Script} {s : Sys} (hsc : forwardScript sc = true) :
    runR E sc s = run E s ∨ runR E sc s = (run E s >>= fun t => exec E t sc.ops) := by
  have hk : (fun h t => sinksR E h sc t) = fun h t => if h = Hook.rxCallback then exec E t sc.ops else .ok t := by
    funext h t; exact sinksR_leaf sc h t hsc
  unfold runR run
  cases s.pending with
  | nil => exact Or.inl rfl
  | cons p ps =>
    obtain ⟨t, a⟩ := p
    cases a with
    | receive d f src rx =>
      simp only [dispatch]
      exact receiveK_leaf hk
    | txComplete d dest =>
      left
      simp only [dispatch]
      rw [← transmitCompleteK_plain, hk]
      have hq : QuietChan (fun h t => if h = Hook.rxCallback then exec E t sc.ops else .ok t) :=
        ⟨fun _ _ => rfl, fun _ _ _ _ => rfl⟩
      simp [transmitCompleteK, transmitStartK, chanTransmitK_plain E hq, chanTransmitK_plain E quietChan_plain]

theorem execR_leaf {E : Env} {ops : List ROp} {s : Sys} (h : ∀ op ∈ ops, forwardOp op = true) :
    ∃ ops' : List Op, execR E s ops = exec E s ops' := by
  have happ : ∀ (l m : List Op) (s : Sys), exec E s (l ++ m) = (exec E s l >>= fun t => exec E t m) := by
    intro l
    induction l with
    | nil => intro m s; rfl
    | cons op l ih =>
      intro m s
      simp only [List.cons_append, exec]
      cases step E s op with
      | fail e => rfl
      | ok t => simp only [Outcome.ok_bind, ih]
  induction ops generalizing s with
  | nil => exact ⟨[], rfl⟩
  | cons op ops ih =>
    have hstep : ∃ l : List Op, stepR E s op = exec E s l := by
      have hone : ∀ o : Op, exec E s [o] = step E s o := by
        intro o
        simp only [exec]
        cases step E s o <;> rfl
      have hop := h op (by simp)
      cases op with
      | call c =>
        exact ⟨[c.op], by rw [hone]; exact leaf_step hop s⟩
      | run sc =>
        rcases runR_leaf (E := E) (s := s) (show forwardScript sc = true from hop) with h1 | h1
        · exact ⟨[.run], by rw [hone]; exact h1⟩
        · exact ⟨.run :: sc.ops, by simp only [exec, step, stepR]; exact h1⟩
      | plain o => exact ⟨[o], by rw [hone]; rfl⟩
    obtain ⟨l, hl⟩ := hstep
    simp only [execR, hl]
    cases hx : exec E s l with
    | fail e => exact ⟨l, by rw [hx]; rfl⟩
    | ok t =>
      obtain ⟨l', hl'⟩ := ih (s := t) (fun o ho => h o (by simp [ho]))
      exact ⟨l ++ l', by rw [happ, hx]; simp only [Outcome.ok_bind]; exact hl'⟩

end Verif
