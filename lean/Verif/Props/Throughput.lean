import Verif.Lemmas.Throughput
import Verif.Props.Queueing
import Verif.Props.Timing
/-!
# No link carries more than its data rate (C105)
-/

namespace Verif
open Spec

/-- The transmissions of a device leave room for each other. -/
theorem begun_spaced {E : Env} {s0 s : Sys} {ops : List Op} (h0 : Initial s0) (h : exec E s0 ops = .ok s) {d : DevId}
    (hst : SteadyRate d ops) :
    (begunT d s.log).Pairwise (fun a b => a.1 + occupation E (s0.dev d) a.2 ≤ b.1) := by
  obtain ⟨Q, hQ, _⟩ := C74_fifo_schedule h0 h hst
  have hc := fifo_spaced (occupation E (s0.dev d)) 0 (acceptedT d s.log)
  rw [← hQ] at hc
  exact hc.sublist (List.sublist_append_left _ _)

/-- **C105, sender**: the air time of all frames a device begins to transmit from `t0` to `t1` is at most `t1 - t0` and one
frame, the last one, which may end after `t1`.  `W` is the air time of the longest frame. -/
theorem C105_sender {E : Env} {s0 s : Sys} {ops : List Op} (h0 : Initial s0) (h : exec E s0 ops = .ok s) {d : DevId}
    (hst : SteadyRate d ops) {W t0 t1 : Time} (hW : ∀ a ∈ begunT d s.log, occupation E (s0.dev d) a.2 ≤ W) (ht : t0 ≤ t1) :
    load (occupation E (s0.dev d)) (((begunT d s.log).filter fun a => decide (t0 ≤ a.1) && decide (a.1 ≤ t1)).map Prod.snd)
      ≤ (t1 - t0) + W := by
  have := window_load (M := (begunT d s.log).filter fun a => decide (t0 ≤ a.1) && decide (a.1 ≤ t1)) (lo := t0) (hi := t1)
    (x := 0) (y := 0) ((begun_spaced h0 h hst).sublist List.filter_sublist)
    (fun a ha => hW a (List.mem_filter.mp ha).1)
    (fun a ha => by simpa using (List.mem_filter.mp ha).2) (by omega)
  omega

/-- Three frames of 20 time units each: two of them begin from 0 to 39, and 40 ≤ 39 + 20. -/
example : Demo.check { Demo.env with txTime := fun _ _ => 20 } Demo.sys
    [.attach 0 1, .attach 1 1, .send 0 [1] (.mac (Demo.mac 2)) 1, .send 0 [2] (.mac (Demo.mac 2)) 1,
     .send 0 [3] (.mac (Demo.mac 2)) 1, .run, .run, .run, .run]
    (fun s => ((begunT 0 s.log).map Prod.fst) == [0, 20, 40]
      && ((begunT 0 s.log).filter fun a => decide (0 ≤ a.1) && decide (a.1 ≤ 39)).length == 2) = true := by decide +kernel

/-- **C105, receiver**: if no device is attached twice and the delays from `src` to `dst` are between `lo` and `hi`, then
the air time of all frames `dst` receives from `src` from `t0` to `t1` is at most `t1 - t0`, one frame, and what a
shrinking delay can push together. -/
theorem C105_receiver {E : Env} {s0 s : Sys} {ops : List Op} (h0 : Initial s0) (h : exec E s0 ops = .ok s)
    (hnd : ∀ c, (s.chan c).link.Nodup) {src dst : DevId} (hst : SteadyRate src ops) {W lo hi t0 t1 : Time}
    (hW : ∀ a ∈ begunT src s.log, occupation E (s0.dev src) a.2 ≤ W) (hd : DelaysWithin src dst lo hi s.log) (hlh : lo ≤ hi)
    (ht : t0 ≤ t1) :
    load (occupation E (s0.dev src)) ((during t0 t1 (between src dst (happened s.log))).map Arrival.frame)
      ≤ (t1 - t0) + (hi - lo) + W := by
  have hp := between_perm (src := src) (dst := dst) (C26_receptions_as_announced h0 h)
  rw [between_append] at hp
  have hp2 := (hp.filter fun a => decide (t0 ≤ a.time) && decide (a.time ≤ t1)).map Arrival.frame
  rw [List.filter_append, List.map_append] at hp2
  have e := load_perm (w := occupation E (s0.dev src)) hp2
  rw [load_append] at e
  have h1 := load_sublist (w := occupation E (s0.dev src)) (announced_handed (t0 := t0) (t1 := t1) hd)
  have hs := handedT_exec h0 h hnd src dst
  have h2 := window_load (w := occupation E (s0.dev src)) (W := W) (lo := t0) (hi := t1) (x := lo) (y := hi)
    (M := (projT (handedEv src dst) s.log).filter fun a => decide (t0 ≤ a.1 + hi) && decide (a.1 + lo ≤ t1))
    ((begun_spaced h0 h hst).sublist (List.filter_sublist.trans hs))
    (fun a ha => hW a (hs.subset (List.mem_filter.mp ha).1))
    (fun a ha => by simpa using (List.mem_filter.mp ha).2) (by omega)
  unfold during at h1 ⊢
  omega

/-- **C105, in bits**: if transmission times are those of the data rate but for what is lost below a nanosecond, `dst`
receives from `src` within `t1 - t0` at most the rate times this span, one frame, the change of the delay and a
nanosecond for every frame. -/
theorem C105_receiver_bits {E : Env} {s0 s : Sys} {ops : List Op} (h0 : Initial s0) (h : exec E s0 ops = .ok s)
    (hnd : ∀ c, (s.chan c).link.Nodup) {src dst : DevId} (hst : SteadyRate src ops) {W lo hi t0 t1 : Time}
    (hW : ∀ a ∈ begunT src s.log, occupation E (s0.dev src) a.2 ≤ W) (hd : DelaysWithin src dst lo hi s.log) (hlh : lo ≤ hi)
    (ht : t0 ≤ t1) (hx : RateExact E.txTime) (hr : 0 < (s0.dev src).rate) :
    bits ((during t0 t1 (between src dst (happened s.log))).map Arrival.frame) * 1000000000 ≤ (s0.dev src).rate *
      ((t1 - t0) + (hi - lo) + W + (during t0 t1 (between src dst (happened s.log))).length) := by
  have h1 := C105_receiver h0 h hnd hst hW hd hlh ht
  have h2 := bits_le hx hr (s0.dev src).gap
    ((during t0 t1 (between src dst (happened s.log))).map Arrival.frame)
  rw [List.length_map] at h2
  refine h2.trans (Nat.mul_le_mul_left _ ?_)
  exact Nat.add_le_add_right h1 _

/-- Truncated division, as the conversion of a rate into a time of whole nanoseconds, is exact in this sense. -/
theorem rateExact_div : RateExact (fun r n => 8 * n * 1000000000 / r) := by
  intro r n hr
  have h1 := Nat.div_add_mod (8 * n * 1000000000) r
  have h2 := Nat.mod_lt (8 * n * 1000000000) hr
  simp only
  generalize 8 * n * 1000000000 = x at *
  have : (x / r + 1) * r = r * (x / r) + r := by ring
  omega

/-- A link with positive rate and truncated transmission times: two frames are received in a span of the delay of one; all
delays are the same, no device is attached twice, and the frames take equally long. -/
example : Demo.check { Demo.env with txTime := fun r n => 8 * n * 1000000000 / r }
    { Demo.sys with dev := fun d => { Demo.sys.dev d with rate := 1000000 } }
    [.attach 0 1, .attach 1 1, .send 0 [1] (.mac (Demo.mac 2)) 1, .send 0 [2] (.mac (Demo.mac 2)) 1, .run, .run, .run, .run]
    (fun s => decide (s.chan 1).link.Nodup && (s.dev 0).rate == 1000000
      && s.log.all (fun e => match e.2 with | .txrx _ _ _ _ _ del => del == 512000 | _ => true)
      && (begunT 0 s.log).map (fun a => a.2.length) == [64, 64]
      && bits ((during 512000 1024000 (between 0 1 (happened s.log))).map Arrival.frame) == 1024) = true := by decide +kernel

/-- **C105, full use**: while frames wait, a device transmits without pause: transmission `j` begins exactly when the air
time of the frames `i` to `j - 1` is over. -/
theorem C105_saturated {E : Env} {s0 s : Sys} {ops : List Op} (h0 : Initial s0) (h : exec E s0 ops = .ok s) {d : DevId}
    (hst : SteadyRate d ops) {m : List (Time × Bytes)} {a b : Time × Bytes} {l1 l2 : List (Time × Bytes)}
    (hb : begunT d s.log = l1 ++ a :: (m ++ b :: l2))
    (hf : Backlogged (occupation E (s0.dev d)) l1.length (l1.length + m.length + 1) (acceptedT d s.log) (begunT d s.log)) :
    b.1 = a.1 + load (occupation E (s0.dev d)) ((a :: m).map Prod.snd) := by
  obtain ⟨Q, hQ, _⟩ := C74_fifo_schedule h0 h hst
  have key : ∀ (k : Nat) (x y : Time × Bytes), l1.length ≤ k → k < l1.length + m.length + 1 → (begunT d s.log)[k]? = some x →
      (begunT d s.log)[k + 1]? = some y → y.1 = x.1 + occupation E (s0.dev d) x.2 := by
    intro k x y h1 h2 hx hy
    have left : ∀ {n : Nat} {z : Time × Bytes}, (begunT d s.log)[n]? = some z →
        (fifo (occupation E (s0.dev d)) 0 (acceptedT d s.log))[n]? = some z := by
      intro n z hz
      rw [← hQ, List.getElem?_append_left (List.getElem?_eq_some_iff.mp hz).1, hz]
    have hx' := left hx
    have hy' := left hy
    have hlen := (List.getElem?_eq_some_iff.mp hy').1
    rw [fifo_length] at hlen
    have ha : (acceptedT d s.log)[k + 1]? = some ((acceptedT d s.log)[k + 1]) := List.getElem?_eq_getElem hlen
    have hn := fifo_next hx' ha
    rw [hy', Option.some.injEq] at hn
    have := hf k x _ h1 h2 hx ha
    rw [hn]
    simp only
    omega
  rw [hb] at key
  clear hf hb hQ
  induction m generalizing a l1 with
  | nil =>
    have := key l1.length a b (Nat.le_refl _) (by omega) (by simp) (by simp)
    simpa [load] using this
  | cons x m ih =>
    have h1 := key l1.length a x (Nat.le_refl _) (by omega) (by simp) (by simp)
    have h2 := @ih x (l1 ++ [a]) (by
      intro k u v hk1 hk2 hu hv
      simp only [List.length_append, List.length_cons, List.length_nil] at hk1 hk2
      refine key k u v (by omega) (by simp only [List.length_cons]; omega) ?_ ?_
      · rw [← hu]; simp
      · rw [← hv]; simp)
    simp only [load, List.map_cons, List.sum_cons] at h2 ⊢
    omega

/-- The hypothesis on the backlog, for three frames sent at once. -/
example : Demo.check { Demo.env with txTime := fun _ _ => 20 } Demo.sys
    [.attach 0 1, .attach 1 1, .send 0 [1] (.mac (Demo.mac 2)) 1, .send 0 [2] (.mac (Demo.mac 2)) 1,
     .send 0 [3] (.mac (Demo.mac 2)) 1, .run, .run, .run, .run]
    (fun s => ((begunT 0 s.log).map Prod.fst) == [0, 20, 40] && ((acceptedT 0 s.log).map Prod.fst) == [0, 0, 0]) = true := by
  decide +kernel

/-- The uplink of two stations to the same satellite. -/
def uplinkRun : List Op :=
  [.attach 0 0, .attach 1 0, .attach 2 0, .send 0 [1] (.mac (Demo.mac 2)) 1, .send 2 [1] (.mac (Demo.mac 2)) 1,
   .run, .run, .run, .run]

/-- **C105, the limit is one per sender**: two stations sending to the same satellite over the same channel are not limited
by its rate together.  In the same instant the satellite receives one frame from each: twice the work that fits. -/
theorem C105_medium_not_shared :
    ¬ ∀ (E : Env) (s0 s : Sys) (ops : List Op), Initial s0 → exec E s0 ops = .ok s → ∀ (c : ChanId) (x y dst : DevId), x ≠ y →
      (s.dev x).chan = some c → (s.dev y).chan = some c → (s.dev dst).chan = some c → (s.chan c).link.Nodup →
      ∀ (w : Bytes → Time) (W lo hi t0 t1 : Time), SteadyRate x ops → SteadyRate y ops →
      occupation E (s0.dev x) = w → occupation E (s0.dev y) = w →
      (∀ a ∈ begunT x s.log, w a.2 ≤ W) → (∀ a ∈ begunT y s.log, w a.2 ≤ W) →
      DelaysWithin x dst lo hi s.log → DelaysWithin y dst lo hi s.log → lo ≤ hi → t0 ≤ t1 →
      load w ((during t0 t1 (between x dst (happened s.log))).map Arrival.frame) +
        load w ((during t0 t1 (between y dst (happened s.log))).map Arrival.frame) ≤ (t1 - t0) + (hi - lo) + W := by
  intro hall
  obtain ⟨s, hs, ht⟩ := Demo.exists_of_check (E := Demo.env) (s := Demo.sys) (ops := uplinkRun)
    (test := fun s => (s.dev 0).chan == some 0 && (s.dev 2).chan == some 0 && (s.dev 1).chan == some 0
      && decide (s.chan 0).link.Nodup && (begunT 0 s.log).all (fun a => decide (a.2.length ≤ 64))
      && (begunT 2 s.log).all (fun a => decide (a.2.length ≤ 64))
      && s.log.all (fun e => match e.2 with | .txrx _ _ _ _ _ del => del == 64 | _ => true)
      && ((during 64 64 (between 0 1 (happened s.log))).map fun a => a.frame.length) == [64]
      && ((during 64 64 (between 2 1 (happened s.log))).map fun a => a.frame.length) == [64])
    (by decide +kernel)
  simp only [Bool.and_eq_true, beq_iff_eq, decide_eq_true_eq, List.all_eq_true] at ht
  obtain ⟨⟨⟨⟨⟨⟨⟨⟨h1, h2⟩, h3⟩, h4⟩, h5⟩, h6⟩, h7⟩, h8⟩, h9⟩ := ht
  have hd : ∀ src, DelaysWithin src 1 64 64 s.log := by
    intro src t c f tx del hm
    have := h7 _ hm
    simp only [beq_iff_eq] at this
    omega
  have hw : ∀ l : List Arrival, load List.length (l.map Arrival.frame) = (l.map fun a => a.frame.length).sum := by
    intro l; simp [load, Function.comp_def]
  have := hall _ _ _ _ Demo.sys_initial hs 0 0 2 1 (by decide) h1 h2 h3 h4 List.length 64 64 64 64 64
    (by constructor <;> intro r <;> simp [uplinkRun]) (by constructor <;> intro r <;> simp [uplinkRun]) rfl rfl h5 h6 (hd 0) (hd 2)
    (Nat.le_refl _) (Nat.le_refl _)
  rw [hw, hw, h8, h9] at this
  simp at this

end Verif
