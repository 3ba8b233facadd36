import Verif.Lemmas.Reentrant
import Verif.Lemmas.Index
import Verif.Spec.ChannelTrace
/-! Code connected to the trace source of a channel: which faults it can cause, and the order of the indexes. -/

namespace Verif
open Spec

/-- An outcome is a state with property `Q` or a fault with property `P`. -/
def Holds {α : Type} (P : Fault → Prop) (Q : α → Prop) : Outcome α → Prop
  | .ok a => Q a
  | .fail e => P e

theorem Holds.bind {α β : Type} {P : Fault → Prop} {Q : α → Prop} {R : β → Prop} {o : Outcome α} {k : α → Outcome β}
    (h : Holds P Q o) (hk : ∀ a, Q a → Holds P R (k a)) : Holds P R (o >>= k) := by
  cases o with
  | ok a => exact hk a h
  | fail e => exact h

theorem Holds.mono {α : Type} {P : Fault → Prop} {Q R : α → Prop} {o : Outcome α} (h : Holds P Q o)
    (hk : ∀ a, Q a → R a) : Holds P R o := by
  cases o with
  | ok a => exact hk a h
  | fail e => exact h

/-- The channels of a system. -/
abbrev Chans := ChanId → Chan

/-- Ordered indexes, and the kinds of channels that `K` says. -/
def CInv (K : ChanId → ChanKind) (ch : Chans) : Prop :=
  ∀ c, SortedKeys (ch c).gnd ∧ SortedKeys (ch c).sat ∧ (ch c).kind = K c

/-- What is assumed about faults and about the effect of code that is connected to the trace source of a channel. -/
structure TCtx where
  K : ChanId → ChanKind
  P : Fault → Prop
  bad : Op → Bool
  /-- elements of the indexes that iterators point to -/
  hold : Iters := []
  Ri : Chans → Chans → Prop
  refl : ∀ a, Ri a a
  trans : ∀ a b c, Ri a b → Ri b c → Ri a c
  other : ∀ e, e ≠ .iteratorInvalid → e ≠ .endlessLoop → P e
  iter : P .iteratorInvalid ∨ ∀ c slot, K c = .leo → bad (.detach c slot) = true
  endless : P .endlessLoop ∨ ∀ a b, Ri a b → ∀ c, K c = .isl → (b c).link.length = (a c).link.length
  attach : ∀ d c, bad (.attach d c) = false → ∀ (a : Chans) (ch' : Chan), CInv K a → ch'.kind = (a c).kind →
    (∀ m, m ∈ (a c).gnd.map Prod.fst → m ∈ ch'.gnd.map Prod.fst) → (∀ m, m ∈ (a c).sat.map Prod.fst → m ∈ ch'.sat.map Prod.fst) →
    Ri a (fun x => if x = c then { ch' with link := (a c).link ++ [d] } else a x)
  detach : ∀ c, ∀ (a : Chans) (m : Mac48), (c, m) ∉ hold → Ri a (fun x => if x = c then
    { a c with gnd := mapErase m (a c).gnd, sat := mapErase m (a c).sat } else a x)

namespace TCtx
variable (X : TCtx)

/-- The effect on the channels: restricted inside a delivery. -/
def Rm (inner : Bool) (a b : Chans) : Prop := inner = true → X.Ri a b

theorem Rm.refl (m : Bool) (a : Chans) : X.Rm m a a := fun _ => X.refl a

variable {X} in
theorem Rm.trans {m : Bool} {a b c : Chans} (h1 : X.Rm m a b) (h2 : X.Rm m b c) : X.Rm m a c :=
  fun h => X.trans _ _ _ (h1 h) (h2 h)

/-- What a step does to the channels. -/
def Post (m : Bool) (s s' : Sys) : Prop := CInv X.K s'.chan ∧ X.Rm m s.chan s'.chan

variable {X} in
theorem Post.trans {m : Bool} {s s' s'' : Sys} (h1 : X.Post m s s') (h2 : X.Post m s' s'') : X.Post m s s'' :=
  ⟨h2.1, h1.2.trans h2.2⟩

/-- Connected code. -/
def SinkH (m : Bool) (k : Sys → Outcome Sys) : Prop :=
  ∀ s, CInv X.K s.chan → Holds X.P (X.Post m s) (k s)

/-- Connected code: the trace source of the channel is inside a delivery. -/
def SinksH (m : Bool) (k : Sinks) : Prop := ∀ h, X.SinkH (Hook.inDelivery h || m) (k h)

variable {X}

theorem Post.refl {m : Bool} {s : Sys} (h : CInv X.K s.chan) : X.Post m s s := ⟨h, Rm.refl X m _⟩

theorem Post.of_chan {m : Bool} {s t s' : Sys} (h : t.chan = s.chan) (hp : X.Post m t s') : X.Post m s s' :=
  ⟨hp.1, h ▸ hp.2⟩

theorem deliverK_holds {E : Env} {m : Bool} {k : Sys → Outcome Sys} (hk : X.SinkH m k) {s : Sys} {c : ChanId} {f : Bytes}
    {src dst : DevId} {t : Time} (hs : CInv X.K s.chan) :
    Holds X.P (fun r => X.Post m s r.1) (deliverK E k s c f src dst t) := by
  unfold deliverK
  cases hd : deliver E s c f src dst t with
  | fail e =>
    obtain ⟨rfl, _⟩ := deliver_fail hd
    exact X.other _ (by decide) (by decide)
  | ok r =>
    obtain ⟨s1, b⟩ := r
    have hc := deliver_chan hd
    cases b with
    | false => exact Post.of_chan hc (Post.refl (hc ▸ hs))
    | true =>
      show Holds X.P _ (k s1 >>= fun s2 => .ok (s2, true))
      refine Holds.bind (hk s1 (hc ▸ hs)) ?_
      intro s2 h
      exact Post.of_chan hc h

theorem sorted_dests {K : ChanId → ChanKind} {ch : Chans} (h : CInv K ch) (c : ChanId) (g : Bool) :
    SortedKeys ((ch c).dests g) := by
  unfold Chan.dests
  cases g
  · exact (h c).1
  · exact (h c).2.1

theorem _root_.Verif.Mac48.toNat_lt (a : Mac48) : a.toNat < 2 ^ 48 := by
  obtain ⟨a0, a1, a2, a3, a4, a5⟩ := a
  have := a0.toNat_lt; have := a1.toNat_lt; have := a2.toNat_lt
  have := a3.toNat_lt; have := a4.toNat_lt; have := a5.toNat_lt
  simp only [Mac48.toNat]
  omega

/-- Behind `a` there are larger keys only. -/
theorem restAfter_gt {before now rest : List (Mac48 × DevId)} {a : Mac48} {d : DevId} (h : SortedKeys ((a, d) :: rest))
    {x : Mac48 × DevId} (hx : x ∈ restAfter before now rest a) : a.toNat < x.1.toNat := by
  unfold restAfter at hx
  split at hx
  · exact (List.pairwise_cons.mp h).1 x hx
  · simpa using (List.mem_filter.mp hx).2

theorem restAfter_sorted {before now rest : List (Mac48 × DevId)} {a : Mac48} {d : DevId} (h : SortedKeys ((a, d) :: rest))
    (hn : SortedKeys now) : SortedKeys (restAfter before now rest a) := by
  unfold restAfter
  split
  · exact (List.pairwise_cons.mp h).2
  · exact List.Pairwise.filter _ hn

theorem leoLoopK_holds {E : Env} {m : Bool} {k : Sinks} {c : ChanId} {g : Bool} {f : Bytes} {src : DevId} {t : Time}
    (hk : ∀ a i, X.SinkH m (k (.txrxAt c a i))) (n : Nat) :
    ∀ (i : Nat) (rest : List (Mac48 × DevId)) (s : Sys) (r : Bool), CInv X.K s.chan → SortedKeys rest →
    (∀ x ∈ rest, 2 ^ 48 ≤ n + x.1.toNat) →
    Holds X.P (fun r => X.Post m s r.1) (leoLoopK E k c g f src t n i rest s r) := by
  induction n with
  | zero =>
    intro i rest s r hi _ hr
    cases rest with
    | nil => exact Post.refl hi
    | cons x rest =>
      have := hr x (by simp)
      have := x.1.toNat_lt
      omega
  | succ n ih =>
    intro i rest s r hi hso hr
    cases rest with
    | nil => exact Post.refl hi
    | cons x rest =>
      obtain ⟨a, d⟩ := x
      rw [leoLoopK]
      refine Holds.bind (deliverK_holds (hk a i) hi) ?_
      rintro ⟨s', b⟩ h1
      refine (ih _ _ _ _ h1.1 (restAfter_sorted hso (sorted_dests h1.1 c g)) ?_).mono fun s'' h => h1.trans h
      intro y hy
      have h2 := restAfter_gt hso hy
      have h3 := hr (a, d) (by simp)
      simp only at h2 h3
      omega

theorem islLoopK_holds {E : Env} {m : Bool} {k : Sinks} {c : ChanId} {f : Bytes} {src : DevId} {slot : Nat} {t : Time}
    (hm : m = true) (hk : ∀ i, X.SinkH m (k (.txrx i))) (hK : X.K c = .isl) (n : Nat) :
    ∀ (i : Nat) (s : Sys), CInv X.K s.chan → (X.P .endlessLoop ∨ (s.chan c).link.length ≤ i + n) →
    Holds X.P (X.Post m s) (islLoopK E k c f src slot t n i s) := by
  induction n with
  | zero =>
    intro i s hi hn
    rw [islLoopK]
    split
    · exact Post.refl hi
    · rename_i d hd
      rcases hn with hn | hn
      · exact hn
      · have := (List.getElem?_eq_some_iff.mp hd).1
        omega
  | succ n ih =>
    intro i s hi hn
    rw [islLoopK]
    split
    · exact Post.refl hi
    · simp only
      split
      · refine ih _ _ hi (hn.imp_right fun h => by omega)
      · refine Holds.bind (deliverK_holds (hk i) hi) ?_
        rintro ⟨s', b⟩ h1
        refine (ih _ _ h1.1 ?_).mono fun s'' h => h1.trans h
        rcases hn with hn | hn
        · exact Or.inl hn
        · rcases X.endless with h | h
          · exact Or.inl h
          · have := h _ _ (h1.2 hm) c hK
            simp only at this
            exact Or.inr (by show (s'.chan c).link.length ≤ _; omega)

theorem chanTransmitK_holds {E : Env} {m : Bool} {k : Sinks} (hk : X.SinksH m k) {s : Sys} {c : ChanId} {f : Bytes} {slot : Nat}
    {dest : Addr} {t : Time} (hi : CInv X.K s.chan) :
    Holds X.P (fun r => X.Post m s r.1) (chanTransmitK E k s c f slot dest t) := by
  have h1 : ∀ i, X.SinkH true (k (.txrx i)) := fun i => hk (.txrx i)
  have h2 : ∀ a i, X.SinkH true (k (.txrxAt c a i)) := fun a i => hk (.txrxAt c a i)
  have stay : X.Post m s s := Post.refl hi
  have weak : ∀ {s'}, X.Post true s s' → X.Post m s s' := fun h => ⟨h.1, fun _ => h.2 rfl⟩
  have fuel : ∀ (l : List (Mac48 × DevId)) x, x ∈ l → 2 ^ 48 ≤ l.length + 2 ^ 48 + x.1.toNat := by intros; omega
  unfold chanTransmitK
  split
  · unfold leoTransmitK
    split
    · exact stay
    · simp only
      split
      · exact X.other _ (by decide) (by decide)
      · split
        · exact (leoLoopK_holds h2 _ _ _ _ _ hi (hi c).2.1 (fuel _)).mono fun _ h => weak h
        · split
          · exact (leoLoopK_holds h2 _ _ _ _ _ hi (hi c).1 (fuel _)).mono fun _ h => weak h
          · exact stay
  · rename_i hkind
    unfold islTransmitK
    split
    · exact stay
    · split
      · exact (deliverK_holds (h1 0) hi).mono fun _ h => weak h
      · split
        · exact X.other _ (by decide) (by decide)
        · split
          · refine Holds.bind (islLoopK_holds rfl h1 ((hi c).2.2.symm.trans hkind) _ _ _ hi (Or.inr (by omega))) ?_
            intro s' h
            exact weak h
          · exact stay

/-- A hook fires after a change that leaves the channels alone. -/
theorem fire {m : Bool} {k : Sinks} (hk : X.SinksH m k) {h : Hook} (hh : Hook.inDelivery h = false) {s t : Sys}
    (hi : CInv X.K s.chan) (hc : t.chan = s.chan) : Holds X.P (X.Post m s) (k h t) := by
  have := hk h
  rw [hh, Bool.false_or] at this
  exact (this t (hc ▸ hi)).mono fun s' h => Post.of_chan hc h

theorem fire2 {m : Bool} {k : Sinks} (hk : X.SinksH m k) {h : Hook} (hh : Hook.inDelivery h = false) {s0 s t : Sys}
    (h0 : X.Post m s0 s) (hc : t.chan = s.chan) : Holds X.P (X.Post m s0) (k h t) :=
  (fire hk hh h0.1 hc).mono fun _ h => h0.trans h

theorem transmitStartK_holds {E : Env} {m : Bool} {k : Sinks} (hk : X.SinksH m k) {s : Sys} {d : DevId} {f : Bytes} {dest : Addr}
    (hi : CInv X.K s.chan) : Holds X.P (X.Post m s) (transmitStartK E k s d f dest) := by
  unfold transmitStartK
  split
  · exact X.other _ (by decide) (by decide)
  · refine Holds.bind (fire hk rfl hi rfl) ?_
    intro s1 h1
    simp only
    split
    · exact X.other _ (by decide) (by decide)
    · refine Holds.bind (chanTransmitK_holds hk h1.1) ?_
      rintro ⟨s3, ok⟩ h3
      have h3' : X.Post m s s3 := h1.trans h3
      simp only
      split
      · exact h3'
      · exact fire2 hk rfl h3' rfl

theorem transmitCompleteK_holds {E : Env} {m : Bool} {k : Sinks} (hk : X.SinksH m k) {s : Sys} {d : DevId} {dest : Addr}
    (hi : CInv X.K s.chan) : Holds X.P (X.Post m s) (transmitCompleteK E k s d dest) := by
  unfold transmitCompleteK
  split
  · exact X.other _ (by decide) (by decide)
  · split
    · exact X.other _ (by decide) (by decide)
    · refine Holds.bind (fire hk rfl hi rfl) ?_
      intro s1 h1
      simp only
      split
      · exact X.other _ (by decide) (by decide)
      · split
        · exact h1
        · refine Holds.bind (fire hk rfl h1.1 rfl) ?_
          intro s3 h3
          refine Holds.bind (fire hk rfl h3.1 rfl) ?_
          intro s4 h4
          refine Holds.bind (fire hk rfl h4.1 rfl) ?_
          intro s5 h5
          exact (transmitStartK_holds hk h5.1).mono fun _ h => (((h1.trans h3).trans h4).trans h5).trans h

theorem sendStartK_holds {E : Env} {m : Bool} {k : Sinks} (hk : X.SinksH m k) {s : Sys} {d : DevId} {dest : Addr}
    (hi : CInv X.K s.chan) : Holds X.P (X.Post m s) (sendStartK E k s d dest) := by
  unfold sendStartK
  split
  · split
    · exact X.other _ (by decide) (by decide)
    · refine Holds.bind (fire hk rfl hi rfl) ?_
      intro s3 h3
      refine Holds.bind (fire hk rfl h3.1 rfl) ?_
      intro s4 h4
      refine Holds.bind (fire hk rfl h4.1 rfl) ?_
      intro s5 h5
      exact (transmitStartK_holds hk h5.1).mono fun _ h => ((h3.trans h4).trans h5).trans h
  · exact Post.refl hi

theorem sendK_holds {E : Env} {m : Bool} {k : Sinks} (hk : X.SinksH m k) {s : Sys} {d : DevId} {p : Bytes} {dest : Addr}
    {proto : UInt16} (hi : CInv X.K s.chan) : Holds X.P (X.Post m s) (sendK E k s d p dest proto) := by
  unfold sendK
  split
  · refine Holds.bind (fire hk rfl hi rfl) ?_
    intro s1 h1
    exact h1
  · split
    · exact X.other _ (by decide) (by decide)
    · refine Holds.bind (fire hk rfl hi rfl) ?_
      intro s1 h1
      split
      · exact X.other _ (by decide) (by decide)
      · split
        · refine Holds.bind (fire hk rfl h1.1 rfl) ?_
          intro s2 h2
          refine Holds.bind (sendStartK_holds hk h2.1) ?_
          intro s3 h3
          exact (h1.trans h2).trans h3
        · refine Holds.bind (fire hk rfl h1.1 rfl) ?_
          intro s2 h2
          refine Holds.bind (fire hk rfl h2.1 rfl) ?_
          intro s3 h3
          exact (h1.trans h2).trans h3

theorem receiveK_holds {E : Env} {m : Bool} {k : Sinks} (hk : X.SinksH m k) {s : Sys} {d : DevId} {f : Bytes} {src : DevId} {rx : Power}
    (hi : CInv X.K s.chan) : Holds X.P (X.Post m s) (receiveK E k s d f src rx) := by
  unfold receiveK
  simp only
  split
  · exact fire hk rfl hi rfl
  · refine Holds.bind (fire hk rfl hi rfl) ?_
    intro s1 h1
    have drop : ∀ g, Holds X.P (X.Post m s) (k .phyRxDrop (s1.emit (.phyRxDrop d g))) := fun g =>
      fire2 hk rfl h1 rfl
    split
    · exact drop _
    · split
      · exact drop _
      · cases hdec : decode E.fcs f with
        | fail e => rcases decode_fail hdec with rfl | rfl | rfl <;> exact X.other _ (by decide) (by decide)
        | ok r =>
          cases r with
          | badFcs rest => exact drop _
          | good p proto srcA dstA =>
            simp only [Outcome.ok_bind]
            refine Holds.bind (fire hk rfl h1.1 rfl) ?_
            intro s2 h2
            have tail : ∀ s3, X.Post m s s3 → Holds X.P (X.Post m s)
                (if packetType dstA (s1.dev d).addr = PacketType.otherHost then Outcome.ok s3
                else do
                  let s4 ← k Hook.macRx (s3.emit (Ev.macRx d f))
                  if (s4.dev d).rxCb = true then k Hook.rxCallback (s4.emit (Ev.rxCallback d p proto srcA))
                    else Outcome.fail Fault.nullCallback) := by
              intro s3 h3
              split
              · exact h3
              · refine Holds.bind (fire hk rfl h3.1 rfl) ?_
                intro s4 h4
                split
                · exact fire2 hk rfl (h3.trans h4) rfl
                · exact X.other _ (by decide) (by decide)
            split
            · refine Holds.bind (fire hk rfl h2.1 rfl) ?_
              intro s3 h3
              refine Holds.bind (fire hk rfl h3.1 rfl) ?_
              intro s4 h4
              exact tail s4 (((h1.trans h2).trans h3).trans h4)
            · exact tail s2 (h1.trans h2)

theorem cinv_set {K : ChanId → ChanKind} {a : Chans} (h : CInv K a) {c : ChanId} {ch : Chan} (h1 : SortedKeys ch.gnd)
    (h2 : SortedKeys ch.sat) (h3 : ch.kind = (a c).kind) : CInv K (fun x => if x = c then ch else a x) := by
  intro x
  by_cases hx : x = c
  · subst hx; simp only [if_true]; exact ⟨h1, h2, h3.trans (h x).2.2⟩
  · simp only [hx, if_false]; exact h x

theorem mapInsert_keys {a m : Mac48} {d : DevId} {l : List (Mac48 × DevId)} (h : m ∈ l.map Prod.fst) :
    m ∈ (mapInsert a d l).map Prod.fst := by
  induction l with
  | nil => cases h
  | cons x l ih =>
    rw [mapInsert]
    simp only [List.map_cons, List.mem_cons] at h
    split
    · rename_i he
      simp only [List.map_cons, List.mem_cons]
      exact h.imp_left fun hm => hm.trans he.symm
    · split
      · simp only [List.map_cons, List.mem_cons]
        exact Or.inr h
      · simp only [List.map_cons, List.mem_cons]
        exact h.imp_right ih

theorem attachK_holds {m : Bool} {k : Sinks} (hk : X.SinksH m k) {s : Sys} {d : DevId} {c : ChanId} (hi : CInv X.K s.chan)
    (hm : m = true → X.bad (.attach d c) = false) : Holds X.P (X.Post m s) (attachK k s d c) := by
  have up : ∀ ch' : Chan, ch'.kind = (s.chan c).kind → SortedKeys ch'.gnd → SortedKeys ch'.sat →
      (∀ m, m ∈ (s.chan c).gnd.map Prod.fst → m ∈ ch'.gnd.map Prod.fst) →
      (∀ m, m ∈ (s.chan c).sat.map Prod.fst → m ∈ ch'.sat.map Prod.fst) →
      Holds X.P (X.Post m s) (do
        let s1 ← k .linkChange (((s.setChan c { ch' with link := (s.chan c).link ++ [d] }).setDev d
          { s.dev d with chan := some c, chanSlot := (s.chan c).link.length, linkUp := true }).emit (.linkChange d))
        .ok (s1.emit (.attachRet d c (s.chan c).link.length))) := by
    intro ch' h1 h2 h3 h4 h5
    have hset : X.Post m s (((s.setChan c { ch' with link := (s.chan c).link ++ [d] }).setDev d
          { s.dev d with chan := some c, chanSlot := (s.chan c).link.length, linkUp := true }).emit (.linkChange d)) :=
      ⟨cinv_set hi h2 h3 h1, fun h => X.attach d c (hm h) s.chan ch' hi h1 h4 h5⟩
    refine Holds.bind (fire hk rfl hset.1 rfl) ?_
    intro s1 h
    exact hset.trans h
  unfold attachK
  simp only
  split
  · exact up _ rfl (hi c).1 (hi c).2.1 (fun _ h => h) (fun _ h => h)
  · split
    · exact X.other _ (by decide) (by decide)
    · split
      · exact up { s.chan c with gnd := mapInsert (s.dev d).addr d (s.chan c).gnd } rfl (sorted_mapInsert (hi c).1) (hi c).2.1
          (fun _ h => mapInsert_keys h) (fun _ h => h)
      · exact up { s.chan c with sat := mapInsert (s.dev d).addr d (s.chan c).sat } rfl (hi c).1 (sorted_mapInsert (hi c).2.1)
          (fun _ h => h) (fun _ h => mapInsert_keys h)

theorem baseDetachK_holds {m : Bool} {k : Sinks} (hk : X.SinksH m k) {s : Sys} {c : ChanId} {slot : Nat} (hi : CInv X.K s.chan) :
    Holds X.P (X.Post m s) (baseDetachK k s c slot) := by
  unfold baseDetachK
  split
  · exact Post.refl hi
  · split
    · exact Post.refl hi
    · refine Holds.bind (fire hk rfl hi rfl) ?_
      intro s1 h
      exact h

theorem detachK_holds {m : Bool} {k : Sinks} (hk : X.SinksH m k) {its : Iters} {s : Sys} {c : ChanId} {slot : Nat}
    (hi : CInv X.K s.chan) (hm : its = [] ∨ X.bad (.detach c slot) = false) (hh : m = true → ∀ x ∈ X.hold, x ∈ its) :
    Holds X.P (X.Post m s) (detachK k its s c slot) := by
  unfold detachK
  split
  · exact baseDetachK_holds hk hi
  · rename_i hkind
    split
    · exact X.other _ (by decide) (by decide)
    · simp only
      split
      · rename_i hcon
        rcases hm with rfl | hm
        · simp at hcon
        · rcases X.iter with h | h
          · exact h
          · rw [h c slot ((hi c).2.2.symm.trans hkind)] at hm
            exact absurd hm (by decide)
      · rename_i d _ hcon
        have hset : X.Post m s (s.setChan c { s.chan c with gnd := mapErase (s.dev d).addr (s.chan c).gnd, sat := mapErase (s.dev d).addr (s.chan c).sat }) :=
          ⟨cinv_set hi (sorted_mapErase (hi c).1) (sorted_mapErase (hi c).2.1) rfl, fun h => X.detach c s.chan _ fun hin => hcon (by simpa using hh h _ hin)⟩
        exact (baseDetachK_holds hk hset.1).mono fun _ h => hset.trans h

theorem silent (m : Bool) : X.SinksH m (fun _ t => .ok t) := fun _ _ h => Post.refl h

theorem run_holds {E : Env} {m : Bool} {s : Sys} (hi : CInv X.K s.chan) : Holds X.P (X.Post m s) (run E s) := by
  rw [← runR_nil]
  unfold runR
  split
  · exact Post.refl hi
  · have : (fun h t => sinksR E h .nil t) = fun _ t => .ok t := by
      funext h t; rw [sinksR, sinksI]
    rw [this]
    split
    · exact transmitCompleteK_holds (silent m) hi
    · exact receiveK_holds (silent m) hi

theorem confK_holds {E : Env} {m : Bool} {k : Sinks} (hk : X.SinksH m k) {its : Iters} {s : Sys} {op : Op}
    (hi : CInv X.K s.chan) (h1 : m = true → X.bad op = false) (h2 : its = [] ∨ X.bad op = false)
    (hh : m = true → ∀ x ∈ X.hold, x ∈ its) :
    Holds X.P (X.Post m s) (confK E k its s op) := by
  cases op with
  | attach d c => exact attachK_holds hk hi h1
  | detach c slot => exact detachK_holds hk hi h2 hh
  | send d p dest proto =>
    simp only [confK, step]
    rw [← sendK_plain]
    exact sendK_holds (silent m) hi
  | run => exact run_holds hi
  | setAddress d a =>
    cases a with
    | other => exact X.other _ (by decide) (by decide)
    | mac a => exact Post.of_chan rfl (Post.refl hi)
  | wait dt =>
    simp only [confK, step]
    split <;> exact Post.refl hi
  | _ => exact Post.of_chan rfl (Post.refl hi)

mutual
theorem sendI_holds {E : Env} (c : Call) (m : Bool) (its : Iters) (hits : (m = true ∧ ∀ x ∈ X.hold, x ∈ its) ∨ (its = [] ∧ X.hold = []))
    (hc : (if m then avoids X.bad c else deliverAvoids X.bad c) = true) : X.SinkH m (sendI E c its) := by
  intro s hi
  match c with
  | .mk d p dest proto sc =>
    rw [sendI]
    refine sendK_holds (sinksI_holds sc m its hits ?_) hi
    cases m <;> simpa [avoids, deliverAvoids] using hc
  | .conf op sc =>
    rw [sendI]
    refine confK_holds (sinksI_holds sc m its hits ?_) hi ?_ ?_ ?_
    · cases m
      · simpa [deliverAvoids] using hc
      · simp only [avoids, if_true, Bool.and_eq_true] at hc ⊢; exact hc.2
    · rintro rfl
      simp only [avoids, if_true, Bool.and_eq_true, Bool.not_eq_true'] at hc
      exact hc.1
    · rcases hits with ⟨rfl, _⟩ | h
      · simp only [avoids, if_true, Bool.and_eq_true, Bool.not_eq_true'] at hc
        exact Or.inr hc.1
      · exact Or.inl h.1
    · rintro -
      rcases hits with ⟨_, h⟩ | h
      · exact h
      · simp [h.2]
theorem sinksI_holds {E : Env} (sc : Script) (m : Bool) (its : Iters) (hits : (m = true ∧ ∀ x ∈ X.hold, x ∈ its) ∨ (its = [] ∧ X.hold = []))
    (hc : (if m then avoidsS X.bad sc else deliverAvoidsS X.bad sc) = true) : X.SinksH m (fun h => sinksI E h sc its) := by
  intro h s hi
  match sc with
  | .nil => show Holds X.P _ (sinksI E h .nil its s); rw [sinksI]; exact Post.refl hi
  | .cons h' c rest =>
    have hrest : X.SinksH m (fun h => sinksI E h rest its) := by
      refine sinksI_holds rest m its hits ?_
      cases m
      · simp only [deliverAvoidsS, Bool.and_eq_true, Bool.false_eq_true, if_false] at hc; exact hc.2
      · simp only [avoidsS, Bool.and_eq_true, if_true] at hc; exact hc.2
    show Holds X.P _ (sinksI E h (.cons h' c rest) its s)
    rw [sinksI]
    split
    · rename_i hh
      have hin : Hook.inDelivery h' = Hook.inDelivery h := by
        rw [hh]; cases h <;> rfl
      have hcall : X.SinkH (Hook.inDelivery h || m) (sendI E c (h.iters its)) := by
        refine sendI_holds c _ _ ?_ ?_
        · have hsub : ∀ x ∈ its, x ∈ h.iters its := by
            intro x hx
            cases h <;> simp [Hook.iters, hx]
          rcases hits with ⟨rfl, hh⟩ | ⟨rfl, hh⟩
          · exact Or.inl ⟨by simp, fun x hx => hsub x (hh x hx)⟩
          · cases h <;> simp_all [Hook.inDelivery, Hook.iters]
        · cases m
          · simp only [deliverAvoidsS, Bool.and_eq_true, hin, Bool.false_eq_true, if_false] at hc
            rw [Bool.or_false]; exact hc.1
          · simp only [avoidsS, Bool.and_eq_true, if_true] at hc
            simp only [Bool.or_true, if_true]; exact hc.1
      refine Holds.bind (hcall s hi) ?_
      intro s' h1
      exact (hrest h s' h1.1).mono fun _ h2 => h1.trans h2
    · exact hrest h s hi
end

theorem stepR_holds {E : Env} (h0 : X.hold = []) {op : ROp} (hop : deliverAvoidsOp X.bad op = true) {s : Sys} (hi : CInv X.K s.chan) :
    Holds X.P (fun s' => CInv X.K s'.chan) (stepR E s op) := by
  cases op with
  | call c =>
    have : deliverAvoids X.bad c = true := hop
    exact (sendI_holds c false [] (Or.inr ⟨rfl, h0⟩) (by simpa using this) s hi).mono fun _ h => h.1
  | run sc =>
    have h1 : deliverAvoidsS X.bad sc = true := hop
    have hk : X.SinksH false (fun h t => sinksR E h sc t) := sinksI_holds sc false [] (Or.inr ⟨rfl, h0⟩) (by simpa using h1)
    simp only [stepR, runR]
    split
    · exact hi
    · rename_i p ps _
      have hi' : CInv X.K ({ s with now := p.time, pending := ps } : Sys).chan := hi
      split
      · exact (transmitCompleteK_holds hk hi').mono fun _ h => h.1
      · exact (receiveK_holds hk hi').mono fun _ h => h.1
  | plain op =>
    simp only [stepR]
    rw [← confK_plain]
    exact (confK_holds (silent false) hi (fun h => absurd h (by decide)) (Or.inl rfl) (fun h => absurd h (by decide))).mono fun _ h => h.1

theorem execR_holds {E : Env} (h0 : X.hold = []) (ops : List ROp) (hops : ∀ op ∈ ops, deliverAvoidsOp X.bad op = true) :
    ∀ s : Sys, CInv X.K s.chan → Holds X.P (fun s' => CInv X.K s'.chan) (execR E s ops) := by
  induction ops with
  | nil => intro s hi; exact hi
  | cons op ops ih =>
    intro s hi
    rw [execR]
    refine Holds.bind (stepR_holds h0 (hops op (by simp)) hi) ?_
    intro s' h
    exact ih (fun o ho => hops o (by simp [ho])) s' h

end TCtx

mutual
theorem avoids_none (c : Call) : avoids (fun _ => false) c = true := by
  match c with
  | .mk _ _ _ _ sc => rw [avoids]; exact avoidsS_none sc
  | .conf _ sc => rw [avoids, avoidsS_none sc]; rfl
theorem avoidsS_none (sc : Script) : avoidsS (fun _ => false) sc = true := by
  match sc with
  | .nil => rfl
  | .cons _ c rest => rw [avoidsS, avoids_none c, avoidsS_none rest]; rfl
end

end Verif
