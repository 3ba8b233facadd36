import Verif.Lemmas.EndToEnd
import Verif.Props.Channel
import Mathlib.Data.List.Count
/-! # C63: one packet, from `Send` to the receive callbacks -/

namespace Verif
open Spec

theorem reached_fit {E : Env} {s0 s : Sys} {ops : List Op} (h0 : Initial s0) (hp : ProperRun E s0 ops)
    (h : exec E s0 ops = .ok s) : Fit E s := by
  obtain ⟨s', h', hf⟩ := fit_exec (fit_initial h0) hp
  rw [h] at h'; injection h' with h'; subst h'; exact hf

open Classical in
/-- **C63**, LEO channel: in a network reached by proper use, with nothing going on, a packet of at most
1492 bytes is sent by a device whose link is up and whose queue has room.  Then all events run without
failure, and afterwards the receive callback of a device has been called exactly once for it — with the
packet, the protocol and the address of the sender — if sender and receiver are members of the
channel, of different type, and the receiver hears the sender; otherwise it has not been called. -/
theorem C63_leo_packet {E : Env} {s0 s : Sys} {ops : List Op} {d : DevId} {c : ChanId} {p : Bytes} {proto : UInt16} {m : Mac48}
    (hE : ErrorFree E) (h0 : Initial s0) (hpr : ProperRun E s0 ops) (h : exec E s0 ops = .ok s) (hp : s.pending = [])
    (hup : (s.dev d).linkUp = true) (hcap : 0 < (s.dev d).cap) (hlen : p.length ≤ 1492)
    (hc : (s.dev d).chan = some c) (hk : (s.chan c).kind = .leo) :
    ∃ n s', exec E s (.send d p (.mac m) proto :: List.replicate n .run) = .ok s' ∧ s'.pending = [] ∧
      ∀ x, upcallLog x s'.log = upcallLog x s.log ++
        if d ∈ members c s.log ∧ x ∈ members c s.log ∧ (s.dev x).side ≠ (s.dev d).side ∧ Hears E s c d m x then
          [(p, proto, (s.dev d).addr)] else [] := by
  have hf := reached_fit h0 hpr h
  obtain ⟨c', n, s', hc', hex, hpe, hall⟩ := one_packet (proto := proto) (m := m) hE hf
    (bounded_exec (bounded_initial h0) h) hp hup hcap hlen
  rw [hc] at hc'; injection hc' with hc'; subst hc'
  refine ⟨n, s', hex, hpe, fun x => ?_⟩
  rw [hall x]
  congr 1
  obtain ⟨hm, hpw⟩ := audience_leo (dest := .mac m) (hf.index c) hk (hf.wired d c hc)
  have hnd : (audience s c (s.dev d).chanSlot (.mac m)).Nodup := by
    refine List.Pairwise.imp ?_ hpw
    intro a b hab hh
    rw [hh] at hab
    exact absurd hab (Nat.lt_irrefl _)
  by_cases hh : Hears E s c d m x
  · by_cases hx : x ∈ audience s c (s.dev d).chanSlot (.mac m)
    · obtain ⟨h1, h2, h3⟩ := (hm x).mp hx
      rw [if_pos hh, if_pos ⟨h1, h2, h3, hh⟩, List.count_eq_one_of_mem hnd hx]
      rfl
    · rw [if_pos hh, if_neg fun h => hx ((hm x).mpr ⟨h.1, h.2.1, h.2.2.1⟩), List.count_eq_zero_of_not_mem hx]
      rfl
  · rw [if_neg hh, if_neg fun h => hh h.2.2.2]

open Classical in
/-- **C63**, ISL channel, destination owned by an attached device (proper use allows one owner): no other
device can get the packet, and the owner gets it exactly once if it hears the sender. -/
theorem C63_isl_unicast {E : Env} {s0 s : Sys} {ops : List Op} {d : DevId} {c : ChanId} {p : Bytes} {proto : UInt16} {m : Mac48}
    {i : Nat} {dst : DevId}
    (hE : ErrorFree E) (h0 : Initial s0) (hpr : ProperRun E s0 ops) (h : exec E s0 ops = .ok s) (hp : s.pending = [])
    (hup : (s.dev d).linkUp = true) (hcap : 0 < (s.dev d).cap) (hlen : p.length ≤ 1492)
    (hc : (s.dev d).chan = some c) (hk : (s.chan c).kind = .isl)
    (hdst : (s.chan c).link[i]? = some dst) (hadr : (s.dev dst).addr = m) :
    ∃ n s', exec E s (.send d p (.mac m) proto :: List.replicate n .run) = .ok s' ∧ s'.pending = [] ∧
      ∀ x, upcallLog x s'.log = upcallLog x s.log ++
        if x = dst ∧ Hears E s c d m dst then [(p, proto, (s.dev d).addr)] else [] := by
  have hf := reached_fit h0 hpr h
  obtain ⟨c', n, s', hc', hex, hpe, hall⟩ := one_packet (proto := proto) (m := m) hE hf
    (bounded_exec (bounded_initial h0) h) hp hup hcap hlen
  rw [hc] at hc'; injection hc' with hc'; subst hc'
  refine ⟨n, s', hex, hpe, fun x => ?_⟩
  rw [hall x]
  congr 1
  have haud : audience s c (s.dev d).chanSlot (.mac m) = [dst] := by
    unfold audience
    have hfd : ∃ y, (s.chan c).link.find? (fun d => Addr.mac (s.dev d).addr = .mac m) = some y := by
      rw [← Option.isSome_iff_exists, List.find?_isSome]
      exact ⟨dst, List.mem_of_getElem? hdst, by simp [hadr]⟩
    obtain ⟨y, hy⟩ := hfd
    have hym := List.mem_of_find?_eq_some hy
    have hya := List.find?_some hy
    simp only [decide_eq_true_eq, Addr.mac.injEq] at hya
    have : y = dst := (hf.index c).inj y (by rw [← (hf.index c).link]; exact hym) dst
      (by rw [← (hf.index c).link]; exact List.mem_of_getElem? hdst) (by rw [hya, hadr])
    subst this
    simp only [hf.wired d c hc, hk, hy]
  rw [haud]
  by_cases hxd : x = dst
  · subst hxd
    simp only [List.count_singleton_self, List.replicate_one, true_and]
  · rw [List.count_singleton]
    simp only [hxd, false_and, if_false, show (dst == x) = false by simpa using fun h : dst = x => hxd h.symm, Bool.false_eq_true, List.replicate_zero,
      ite_self]

open Classical in
/-- **C63**, ISL channel, broadcast, no attached device owning the broadcast address and no device attached
twice: every attached device other than the sender gets the packet exactly once if it hears the sender,
and no other device gets it. -/
theorem C63_isl_broadcast {E : Env} {s0 s : Sys} {ops : List Op} {d : DevId} {c : ChanId} {p : Bytes} {proto : UInt16}
    (hE : ErrorFree E) (h0 : Initial s0) (hpr : ProperRun E s0 ops) (h : exec E s0 ops = .ok s) (hp : s.pending = [])
    (hup : (s.dev d).linkUp = true) (hcap : 0 < (s.dev d).cap) (hlen : p.length ≤ 1492)
    (hc : (s.dev d).chan = some c) (hk : (s.chan c).kind = .isl) (hnd : (s.chan c).link.Nodup)
    (hno : ∀ y ∈ (s.chan c).link, (s.dev y).addr.bytes ≠ [0xff, 0xff, 0xff, 0xff, 0xff, 0xff]) :
    ∃ n s', exec E s (.send d p (.mac Mac48.broadcast) proto :: List.replicate n .run) = .ok s' ∧ s'.pending = [] ∧
      ∀ x, upcallLog x s'.log = upcallLog x s.log ++
        if x ∈ (s.chan c).link ∧ Hears E s c d Mac48.broadcast x then [(p, proto, (s.dev d).addr)] else [] := by
  have hf := reached_fit h0 hpr h
  obtain ⟨c', n, s', hc', hex, hpe, hall⟩ := one_packet (proto := proto) (m := Mac48.broadcast) hE hf
    (bounded_exec (bounded_initial h0) h) hp hup hcap hlen
  rw [hc] at hc'; injection hc' with hc'; subst hc'
  refine ⟨n, s', hex, hpe, fun x => ?_⟩
  rw [hall x]
  congr 1
  have hw := hf.wired d c hc
  have haud : audience s c (s.dev d).chanSlot (.mac Mac48.broadcast) = (s.chan c).link.eraseIdx (s.dev d).chanSlot := by
    unfold audience
    have : (s.chan c).link.find? (fun d => Addr.mac (s.dev d).addr = .mac Mac48.broadcast) = none := by
      rw [List.find?_eq_none]
      intro x hx he
      simp only [decide_eq_true_eq, Addr.mac.injEq] at he
      exact hno x hx (by rw [he]; rfl)
    simp only [hw, hk, this, if_true]
  have hnd2 : (audience s c (s.dev d).chanSlot (.mac Mac48.broadcast)).Nodup := by
    rw [haud]; exact hnd.sublist (List.eraseIdx_sublist _ _)
  by_cases hh : Hears E s c d Mac48.broadcast x
  · have hxd : x ≠ d := by obtain ⟨_, _, h, _⟩ := hh; exact fun e => h e.symm
    have hmem : x ∈ audience s c (s.dev d).chanSlot (.mac Mac48.broadcast) ↔ x ∈ (s.chan c).link := by
      rw [haud]
      constructor
      · exact fun h => List.mem_of_mem_eraseIdx h
      · intro hx
        obtain ⟨j, hj⟩ := List.mem_iff_getElem?.mp hx
        rw [List.mem_eraseIdx_iff_getElem?]
        refine ⟨j, ?_, hj⟩
        intro he
        rw [he, hw] at hj
        injection hj with hj
        exact hxd hj.symm
    rw [if_pos hh]
    by_cases hx : x ∈ (s.chan c).link
    · rw [if_pos ⟨hx, hh⟩, List.count_eq_one_of_mem hnd2 (hmem.mpr hx)]; rfl
    · rw [if_neg fun h => hx h.1, List.count_eq_zero_of_not_mem fun h => hx (hmem.mp h)]; rfl
  · rw [if_neg hh, if_neg fun h => hh h.2]

theorem demo_properRun (E : Env) {ops : List Op} (h : ∀ op ∈ ops, ∃ d c : Nat, op = .attach d c ∧ d < 200) :
    ProperRun E Demo.sys ops := by
  refine properRun_of_static Demo.sys_initial ?_ ?_
  · intro op hop
    obtain ⟨d, c, rfl, _⟩ := h op hop
    exact ⟨demo_equipped d, fun _ => rfl⟩
  · intro d d' c c' h1 h2 h3
    obtain ⟨e, _, h4, h5⟩ := h _ h1
    obtain ⟨e', _, h6, h7⟩ := h _ h2
    injection h4 with h4; subst h4
    injection h6 with h6; subst h6
    simp only [Demo.sys, Dev.fresh, Demo.mac, Mac48.mk.injEq, true_and] at h3
    have := congrArg UInt8.toNat h3
    simp only [UInt8.toNat_ofNat'] at this
    rw [Nat.mod_eq_of_lt (by omega), Nat.mod_eq_of_lt (by omega)] at this
    exact Nat.succ.inj this

/-- All hypotheses of `C63_leo_packet` are met: gateway 0 sends to satellite 1 over channel 0, and 1 hears
it, satellite 3 does not. -/
example : ∃ s, exec Demo.env Demo.sys [.attach 0 0, .attach 1 0, .attach 3 0] = .ok s ∧ ErrorFree Demo.env ∧
    ProperRun Demo.env Demo.sys [.attach 0 0, .attach 1 0, .attach 3 0] ∧ s.pending = [] ∧ (s.dev 0).linkUp = true ∧
    0 < (s.dev 0).cap ∧ (s.dev 0).chan = some 0 ∧ (s.chan 0).kind = .leo ∧ 0 ∈ members 0 s.log ∧ 1 ∈ members 0 s.log ∧
    (s.dev 1).side ≠ (s.dev 0).side ∧ Hears Demo.env s 0 0 (Demo.mac 2) 1 ∧ ¬ Hears Demo.env s 0 0 (Demo.mac 2) 3 := by
  refine ⟨_, rfl, fun _ _ _ _ => rfl, demo_properRun _ ?_, rfl, rfl, by decide, rfl, rfl, by decide, by decide, by decide,
    ⟨(0, 1), rfl, by decide, by decide +kernel, Or.inr (Or.inl rfl)⟩, ?_⟩
  · intro op hop
    simp only [List.mem_cons, List.not_mem_nil, or_false] at hop
    rcases hop with rfl | rfl | rfl <;> exact ⟨_, _, rfl, by decide⟩
  · rintro ⟨y, _, _, _, h⟩
    rcases h with h | h | h <;> exact absurd h (by decide)

/-- All hypotheses of `C63_isl_unicast` and `C63_isl_broadcast` are met: satellite 3 on an ISL channel with 1 and 5. -/
example : ∃ s, exec Demo.env Demo.sys [.attach 1 1, .attach 3 1, .attach 5 1] = .ok s ∧ ErrorFree Demo.env ∧
    ProperRun Demo.env Demo.sys [.attach 1 1, .attach 3 1, .attach 5 1] ∧ s.pending = [] ∧ (s.dev 3).linkUp = true ∧
    0 < (s.dev 3).cap ∧ (s.dev 3).chan = some 1 ∧ (s.chan 1).kind = .isl ∧ (s.chan 1).link = [1, 3, 5] ∧
    (s.dev 5).addr = Demo.mac 6 ∧ Hears Demo.env s 1 3 (Demo.mac 6) 5 ∧
    (s.chan 1).link.Nodup ∧ (∀ y ∈ (s.chan 1).link, (s.dev y).addr.bytes ≠ [0xff, 0xff, 0xff, 0xff, 0xff, 0xff]) ∧
    Hears Demo.env s 1 3 Mac48.broadcast 1 ∧ Hears Demo.env s 1 3 Mac48.broadcast 5 := by
  refine ⟨_, rfl, fun _ _ _ _ => rfl, demo_properRun _ ?_, rfl, rfl, by decide, rfl, rfl, rfl, rfl,
    ⟨(0, 1), rfl, by decide, by decide +kernel, Or.inr (Or.inl rfl)⟩, by decide, by decide,
    ⟨(0, 1), rfl, by decide, by decide +kernel, Or.inl rfl⟩, ⟨(0, 1), rfl, by decide, by decide +kernel, Or.inl rfl⟩⟩
  · intro op hop
    simp only [List.mem_cons, List.not_mem_nil, or_false] at hop
    rcases hop with rfl | rfl | rfl <;> exact ⟨_, _, rfl, by decide⟩

end Verif
