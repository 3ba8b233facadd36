import Mathlib.Tactic.ByContra
import Mathlib.Data.List.Induction
import Mathlib.Data.List.Nodup
import Verif.Demo
import Verif.Lemmas.Channel
import Verif.Props.Device
/-!
# Channels (C15-C24, C27)
-/

namespace Verif
open Spec

/-! ### C15 -/

/-- **C15.** In every orderly history, whenever a LEO channel hands a frame of `src` over to `dst`, both
are attached at that moment and they are of different types (one ground, one satellite); in particular
they are different devices. -/
theorem C15_never_same_side {E : Env} {s0 s' : Sys} {ops : List Op} (h0 : Initial s0) (ho : OrderlyRun E s0 ops)
    (h : exec E s0 ops = .ok s') {t : Time} {c : ChanId} {f : Bytes} {src dst : DevId} {tx del : Time}
    (hk : (s0.chan c).kind = .leo) (he : (t, Ev.txrx c f src dst tx del) ∈ s'.log) :
    ∃ o1 op o2 s1 s2, ops = o1 ++ op :: o2 ∧ exec E s0 o1 = .ok s1 ∧ step E s1 op = .ok s2 ∧
      (t, Ev.txrx c f src dst tx del) ∈ newLog s1 s2 ∧
      src ∈ members c s1.log ∧ dst ∈ members c s1.log ∧ (s1.dev src).side ≠ (s1.dev dst).side ∧ src ≠ dst := by
  obtain ⟨o1, op, o2, s1, s2, rfl, h1, h2, h3, h4⟩ := log_entry_origin h0 h he
  have ho1 : OrderlyRun E s0 o1 := by
    rintro p1 q p2 u rfl hu
    exact ho p1 q (p2 ++ op :: o2) u (by simp) hu
  have hr := reached_exec h0 ho1 h1
  obtain ⟨dest, pw, h5, h6, h7, -⟩ := txrx_step hr.inv hr.wired h2 h4
  have hk1 : (s1.chan c).kind = .leo := by rw [kind_exec h1 c]; exact hk
  obtain ⟨h8, h9, h10⟩ := ((audience_leo (hr.index c) hk1 h6).1 dst).mp h7
  exact ⟨o1, op, o2, s1, s2, rfl, h1, h2, h4, h8, h9, fun hh => h10 hh.symm, by rintro rfl; exact h10 rfl⟩

/-- The type a device had when it attached is the type it has while attached: along an orderly history
no operation changes the type or the address of a device that is attached to some channel. -/
theorem C15_type_fixed_while_attached {E : Env} {s s' : Sys} {op : Op} (ho : Orderly s op)
    (h : step E s op = .ok s') {c : ChanId} {d : DevId} (hd : d ∈ members c s.log) :
    (s'.dev d).side = (s.dev d).side ∧ (s'.dev d).addr = (s.dev d).addr := by
  rcases ids_step h with ⟨h1, _, _⟩ | ⟨x, c', rfl⟩ | ⟨c', slot, rfl⟩ | ⟨x, m, rfl⟩ | ⟨x, sd, rfl⟩
  · exact ⟨(h1 d).2, (h1 d).1⟩
  · obtain ⟨g, t, _, rfl⟩ := attach_ok h
    by_cases hx : d = x <;> simp [hx]
  · obtain ⟨_, _, _, _, _, _, _, _, hdev, _⟩ := detach_view h
    exact ⟨(hdev d).2, (hdev d).1⟩
  · injection h with h; subst h
    have : d ≠ x := by rintro rfl; exact (ho c).1 hd
    simp [Sys.setDev, this]
  · injection h with h; subst h
    have : d ≠ x := by rintro rfl; exact ho c hd
    simp [Sys.setDev, this]

/-- A decidable sufficient condition for orderly histories: addresses and types are never changed and the
attached devices have pairwise different addresses. -/
theorem orderlyRun_of_static {E : Env} {s : Sys} (h0 : s.log = []) (ops : List Op)
    (hs : ∀ op ∈ ops, (∀ d a, op ≠ .setAddress d a) ∧ (∀ d sd, op ≠ .setSide d sd))
    (hinj : ∀ d d' c c', Op.attach d c ∈ ops → Op.attach d' c' ∈ ops →
      (s.dev d).addr = (s.dev d').addr → d = d') : OrderlyRun E s ops := by
  -- along such histories addresses are constant and the slots hold attached devices
  have key : ∀ (o1 : List Op) (s1 : Sys), (∀ op ∈ o1, op ∈ ops) → exec E s o1 = .ok s1 →
      (∀ x, (s1.dev x).addr = (s.dev x).addr) ∧ (∀ c x, x ∈ slots c s1.log → Op.attach x c ∈ ops) := by
    intro o1
    induction o1 using List.reverseRecOn with
    | nil =>
      intro s1 _ h; injection h with h; subst h
      exact ⟨fun _ => rfl, by rw [h0]; intro c x hx; simp [slots, roster] at hx⟩
    | append_singleton o1 op ih =>
      intro s1 hmem h
      rw [exec_append, Outcome.bind_eq_ok] at h
      obtain ⟨s2, h1, h2⟩ := h
      simp only [exec] at h2
      rw [Outcome.bind_eq_ok] at h2
      obtain ⟨s3, h3, h4⟩ := h2
      injection h4 with h4; subst h4
      obtain ⟨ha, hsl⟩ := ih s2 (fun op hop => hmem op (by simp [hop])) h1
      have hop := hs op (hmem op (by simp))
      rcases ids_step h3 with ⟨g1, g2, _⟩ | ⟨x, c', rfl⟩ | ⟨c', slot, rfl⟩ | ⟨x, m, rfl⟩ | ⟨x, sd, rfl⟩
      · exact ⟨fun x => by rw [(g1 x).1, ha], fun c x hx => hsl c x (by unfold slots at hx ⊢; rw [← g2]; exact hx)⟩
      · obtain ⟨g, t, _, rfl⟩ := attach_ok h3
        refine ⟨fun y => by rw [← ha y]; by_cases hx : y = x <;> simp [hx], ?_⟩
        intro c y hy
        unfold slots at hy
        simp only at hy
        rw [roster_attach] at hy
        split at hy
        · rename_i hc; subst hc
          simp only [List.mem_append, List.mem_singleton] at hy
          rcases hy with hy | rfl
          · exact hsl _ y hy
          · exact hmem _ (by simp)
        · exact hsl c y hy
      · obtain ⟨_, _, _, _, _, hl, hlog, _, hdev, _⟩ := detach_view h3
        refine ⟨fun y => by rw [(hdev y).1, ha], ?_⟩
        intro c y hy
        unfold slots at hy
        rw [hlog, roster_detach hl] at hy
        split at hy
        · exact hsl c y hy
        · exact hsl c y hy
      · exact absurd rfl (hop.1 x (.mac m))
      · exact absurd rfl (hop.2 x sd)
  rintro o1 op o2 s1 rfl h1
  obtain ⟨ha, hsl⟩ := key o1 s1 (fun op hop => by simp [hop]) h1
  have hop := hs op (by simp)
  cases op with
  | setAddress d a => exact absurd rfl (hop.1 d a)
  | setSide d sd => exact absurd rfl (hop.2 d sd)
  | attach d c =>
    intro y hy hadr
    rw [ha, ha] at hadr
    exact hinj y d c c (hsl c y hy) (by simp) hadr
  | _ => exact trivial

/-- Ground 0, satellites 1 and 3, ground 2 on one LEO channel; 0 sends, later 1. -/
def c15Ops : List Op :=
  [.attach 0 0, .attach 3 0, .attach 1 0, .attach 2 0, .send 0 [7] (.mac (Demo.mac 3)) 5, .run,
   .send 1 [8] (.mac (Demo.mac 2)) 5, .run, .run, .run]

theorem c15Ops_orderly : OrderlyRun Demo.env Demo.sys c15Ops := by
  refine orderlyRun_of_static rfl c15Ops (by intro op hop; simp [c15Ops] at hop; rcases hop with rfl | rfl | rfl | rfl | rfl | rfl | rfl | rfl | rfl | rfl <;> simp) ?_
  intro d d' c c' h1 h2 h3
  simp [c15Ops] at h1 h2
  rcases h1 with ⟨rfl, _⟩ | ⟨rfl, _⟩ | ⟨rfl, _⟩ | ⟨rfl, _⟩ <;> rcases h2 with ⟨rfl, _⟩ | ⟨rfl, _⟩ | ⟨rfl, _⟩ | ⟨rfl, _⟩ <;>
    first | rfl | (revert h3; decide +kernel)

example : Demo.check Demo.env Demo.sys c15Ops (fun s => receivers s.log == [1, 3, 0, 2]) = true := by
  decide +kernel

/-! ### C16 -/

/-- **C16**, channel level, any state: a transmission of an indexed device goes to exactly the reachable
devices of the other index, in index order, and succeeds iff there is one. -/
theorem C16_leo_reaches_other_index {E : Env} {s s' : Sys} {c : ChanId} {f : Bytes} {slot : Nat} {dest : Addr}
    {t : Time} {b : Bool} {src : DevId} (hk : (s.chan c).kind = .leo) (hsrc : (s.chan c).link[slot]? = some src)
    (h : chanTransmit E s c f slot dest t = .ok (s', b)) :
    ∃ L, Delivered s s' c f src t L ∧ (b = true ↔ L ≠ []) ∧
      ((s.dev src).addr ∈ (s.chan c).gnd.map Prod.fst →
        L = (s.chan c).sat.filterMap (fun x => (reachDev E s c src t x.2).map (fun y => (x.2, y)))) ∧
      ((s.dev src).addr ∈ (s.chan c).sat.map Prod.fst →
        L = (s.chan c).gnd.filterMap (fun x => (reachDev E s c src t x.2).map (fun y => (x.2, y)))) ∧
      ((s.dev src).addr ∉ (s.chan c).gnd.map Prod.fst → (s.dev src).addr ∉ (s.chan c).sat.map Prod.fst → L = []) := by
  obtain ⟨h1, h2⟩ := chanTransmit_hits hsrc h
  have hnf : ¬ Floods s c slot dest := by rintro ⟨h, _⟩; rw [hk] at h; cases h
  simp only [hnf, or_false] at h2
  refine ⟨_, h1, h2, ?_, ?_, ?_⟩
  · intro hg
    unfold audience hits
    simp only [hsrc, hk, if_pos hg, List.filterMap_map, Function.comp_def]
  · intro hg
    have hng : (s.dev src).addr ∉ (s.chan c).gnd.map Prod.fst := by
      intro hg'
      unfold chanTransmit leoTransmit at h
      simp only [hk, hsrc, (mapHas_iff _ _).mpr hg, (mapHas_iff _ _).mpr hg', Bool.and_self, if_true] at h
      cases h
    unfold audience hits
    simp only [hsrc, hk, if_neg hng, if_pos hg, List.filterMap_map, Function.comp_def]
  · intro h3 h4
    unfold audience hits
    simp only [hsrc, hk, if_neg h3, if_neg h4, List.filterMap_nil]

/-- **C16**, history level: after an orderly history, a transmission on a LEO channel by an attached device is handed
over exactly once to every attached device of the other type that is reachable (at least -900 dBm, if both
nodes have positions and there is a loss model), in ascending address order, and to nobody else; it
succeeds iff there is at least one. A device that is not attached reaches nobody and fails. -/
theorem C16_leo_reaches_opposite_side {E : Env} {s0 s s' : Sys} {ops : List Op} (h0 : Initial s0)
    (ho : OrderlyRun E s0 ops) (hex : exec E s0 ops = .ok s) {c : ChanId} {f : Bytes} {slot : Nat} {dest : Addr}
    {t : Time} {b : Bool} {src : DevId} (hk : (s.chan c).kind = .leo) (hsrc : (slots c s.log)[slot]? = some src)
    (h : chanTransmit E s c f slot dest t = .ok (s', b)) :
    ∃ L, Delivered s s' c f src t L ∧ (b = true ↔ L ≠ []) ∧
      (∀ x del pw, (x, del, pw) ∈ L ↔ src ∈ members c s.log ∧ x ∈ members c s.log ∧
        (s.dev x).side ≠ (s.dev src).side ∧ reachDev E s c src t x = some (del, pw)) ∧
      (L.map Prod.fst).Pairwise (fun x y => (s.dev x).addr.toNat < (s.dev y).addr.toNat) ∧ (L.map Prod.fst).Nodup := by
  have hr := reached_exec h0 ho hex
  rw [← (hr.index c).link] at hsrc
  obtain ⟨h1, h2⟩ := chanTransmit_hits hsrc h
  have hnf : ¬ Floods s c slot dest := by rintro ⟨h, _⟩; rw [hk] at h; cases h
  simp only [hnf, or_false] at h2
  obtain ⟨h3, h4⟩ := audience_leo (dest := dest) (hr.index c) hk hsrc
  have hsort := h4.sublist (hits_sublist E s c src t (audience s c slot dest))
  refine ⟨_, h1, h2, ?_, hsort, ?_⟩
  · intro x del pw
    rw [mem_hits, h3]
    constructor
    · rintro ⟨⟨a, b, c⟩, d⟩; exact ⟨a, b, c, d⟩
    · rintro ⟨a, b, c, d⟩; exact ⟨⟨a, b, c⟩, d⟩
  · refine hsort.imp ?_
    rintro x y hxy rfl
    exact Nat.lt_irrefl _ hxy

/-- After an orderly history the channel's own assertion (sender known on both sides) never fires: the
transmission goes through whenever all devices are on nodes. -/
theorem C16_leo_transmit_never_faults {E : Env} {s0 s : Sys} {ops : List Op} (h0 : Initial s0)
    (ho : OrderlyRun E s0 ops) (hex : exec E s0 ops = .ok s) (hn : ∀ x, (s.dev x).node ≠ none)
    {c : ChanId} (hk : (s.chan c).kind = .leo) (f : Bytes) (slot : Nat) (m : Mac48) (t : Time) :
    ∃ s' b, chanTransmit E s c f slot (.mac m) t = .ok (s', b) := by
  have hr := reached_exec h0 ho hex
  cases h : chanTransmit E s c f slot (.mac m) t with
  | ok p => exact ⟨p.1, p.2, rfl⟩
  | fail e =>
    exfalso
    rcases chanTransmit_fail h with ⟨_, x, hx⟩ | ⟨_, _, src, hsrc, hg, hsat⟩ | ⟨_, hd⟩
    · exact hn x hx
    · rw [mapHas_iff, List.mem_map] at hg hsat
      obtain ⟨⟨a, y⟩, hy, hya⟩ := hg
      obtain ⟨⟨a', z⟩, hz, hza⟩ := hsat
      have hi := hr.index c
      obtain ⟨g1, g2, g3⟩ := (hi.gnd hk _ _).mp hy
      obtain ⟨k1, k2, k3⟩ := (hi.sat hk _ _).mp hz
      simp only at hya hza
      have : y = z := hi.inj y (hi.sub y g1) z (hi.sub z k1) (by rw [← g3, ← k3, hya, hza])
      subst this
      rw [g2] at k2; cases k2
    · cases hd

/-- **C16**, unknown source: failure, no reception, nothing changes. -/
theorem C16_unknown_source_fails {E : Env} {s : Sys} {c : ChanId} {f : Bytes} {slot : Nat} {dest : Addr} {t : Time}
    (h : (s.chan c).link.length ≤ slot) : chanTransmit E s c f slot dest t = .ok (s, false) :=
  chanTransmit_invalid (List.getElem?_eq_none h)

/-- Loss model making only node 3 unreachable: ground 0 reaches satellites 1 and 5 but not 3. -/
example : Demo.check { Demo.env with hasMob := fun _ => true, loss := fun _ => some fun p _ n _ => if n = 3 then -901 else p - 900 - 1 }
    Demo.sys [.attach 5 0, .attach 0 0, .attach 3 0, .attach 1 0, .attach 2 0, .send 0 [7] (.mac (Demo.mac 3)) 5]
    (fun s => receivers s.log == [1, 5]) = true := by decide +kernel

/-! ### C17 -/

/-- **C17**, channel level: the destination address has no influence on a LEO channel. -/
theorem C17_destination_irrelevant {E : Env} {s : Sys} {c : ChanId} (hk : (s.chan c).kind = .leo)
    (f : Bytes) (slot : Nat) (dest dest' : Addr) (t : Time) :
    chanTransmit E s c f slot dest t = chanTransmit E s c f slot dest' t := by
  unfold chanTransmit
  simp only [hk]
  rfl

theorem proj_airFree_receivers {l : List (Time × Ev)} (h : AirFree l) : receivers l = [] := by
  unfold receivers proj
  rw [List.filterMap_eq_nil_iff]
  rintro ⟨t, e⟩ he
  have := h _ he
  cases e <;> first | rfl | exact absurd this (by simp [AirFreeEv])

theorem proj_rxEvs_receivers {d : DevId} {now : Time} {l : List Ev} (hl : ∀ e ∈ l, RxEv d e) :
    receivers (l.map (fun e => (now, e))) = [] := proj_airFree_receivers (airFree_rxEvs now hl)

theorem receivers_append (l m : List (Time × Ev)) : receivers (l ++ m) = receivers l ++ receivers m := by
  simp [receivers]

theorem receivers_entries (now : Time) (c : ChanId) (f : Bytes) (src : DevId) (t : Time) (rs : List Recv) :
    receivers (rs.map (Recv.entry now c f src t)) = rs.map (·.dst) := by
  induction rs with
  | nil => rfl
  | cons r rs ih =>
    unfold receivers at ih ⊢
    simp [ih, Recv.entry]

/-- Receivers of the transmission of one operation. -/
theorem receivers_tx (now : Time) (l1 l2 : List (Time × Ev)) (h1 : AirFree l1) (h2 : AirFree l2) (d : DevId)
    (f : Bytes) (dest : Addr) (c : ChanId) (t : Time) (rs : List Recv) (b : Bool) :
    receivers (l1 ++ ([(now, .phyTxBegin d f), (now, .onAir d f dest)] ++
      (rs.map (Recv.entry now c f d t) ++ ((if b then [] else [(now, .phyTxDrop d f)]) ++ l2)))) = rs.map (·.dst) := by
  simp only [receivers_append, proj_airFree_receivers h1, proj_airFree_receivers h2, receivers_entries]
  cases b <;> simp [receivers]

/-- A `Send` on an idle device: the receivers of the frame. -/
theorem send_receivers {E : Env} {s s' : Sys} {d : DevId} {p : Bytes} {m : Mac48} {proto : UInt16} {c : ChanId}
    (hi : Inv s) (hw : Wired s) (hc : (s.dev d).chan = some c) (hidle : (s.dev d).busy = false)
    (hup : (s.dev d).linkUp = true) (hcap : 0 < (s.dev d).cap)
    (h : step E s (.send d p (.mac m) proto) = .ok s') :
    receivers (newLog s s') = (hits E s c d 0 (audience s c (s.dev d).chanSlot (.mac m))).map Prod.fst := by
  have hfst : ∀ (T : Time) (l : List DevId), (hits E s c d T l).map Prod.fst = l.filter (fun x => (reachDev E s c d 0 x).isSome) := by
    intro T l
    induction l with
    | nil => rfl
    | cons x l ih =>
      unfold hits at ih ⊢
      rw [List.filterMap_cons, List.filter_cons]
      have h1 : (reachDev E s c d T x).isSome = (reachDev E s c d 0 x).isSome := by
        have a := reachDev_isSome_time E s c d T x
        have b := reachDev_isSome_time E s c d 0 x
        rw [Bool.eq_iff_iff, a, b]
      cases h2 : reachDev E s c d T x with
      | none => rw [h2] at h1; simp only [← h1, Option.map_none]; exact ih
      | some y => rw [h2] at h1; simp only [← h1, Option.map_some, Option.isSome_some, if_true, List.map_cons]; rw [ih]
  have hbeg : ∃ f, (s'.now, Ev.phyTxBegin d f) ∈ newLog s s' := by
    have h' : send E s d p (.mac m) proto = .ok s' := h
    rcases send_ok h' with ⟨hl, _⟩ | ⟨hlu, _, m', hm, f, hf, hcase⟩
    · rw [hup] at hl; cases hl
    · have hq := ((hi.dev d).ready hidle).2.1
      rcases hcase with ⟨hl, _⟩ | ⟨hlen, hb, _⟩ | ⟨hlen, hb, g, rest, s3, hq', hts, rfl⟩
      · rw [hq] at hl; simp at hl; omega
      · rw [hidle] at hb; cases hb
      · obtain ⟨_, c', src, rs, b, hchan, _, _, rfl⟩ := transmitStart_ok hts
        refine ⟨g, ?_⟩
        simp [newLog, txState]
  cases netStep_step hi hw h with
  | quiet l hlog hl hp =>
    replace hl := hl.air
    exfalso
    obtain ⟨f, hf⟩ := hbeg
    simp only [newLog, hlog, List.drop_left] at hf
    exact hl _ hf
  | recv d' g sr rx l hop hp hlog hl hd hc hcall => cases hop
  | tx d' f dest c' rs b ps l1 l2 hchan hrs hb hps hp hlog hl1 hl2 hd hc' =>
    replace hl1 := hl1.air
    replace hl2 := hl2.air
    rcases hps with ⟨_, hnow, p', proto', m', hop, hdest, hf⟩ | ⟨hop, _⟩
    · injection hop with h1 h2 h3 h4
      subst h1; subst h3
      rw [hc] at hchan; injection hchan with hchan; subst hchan
      have hlog' := congrArg (List.drop s.log.length) hlog
      rw [List.drop_left] at hlog'
      unfold newLog
      rw [hlog', receivers_tx _ _ _ hl1 hl2, hrs]
      have : ({ s with now := s'.now } : Sys) = s := by rw [hnow]
      rw [this, hits_toRecv, List.map_map]
      rw [show ((fun r : Recv => r.dst) ∘ toRecv) = Prod.fst from rfl, hfst, hfst]
    · cases hop

/-- **C17**, API level: sending the same payload from an idle device on a LEO channel to two different
destinations reaches the same devices, in the same order. -/
theorem C17_same_receivers {E : Env} {s0 s s1 s2 : Sys} {ops : List Op} (h0 : Initial s0) (hex : exec E s0 ops = .ok s)
    {d : DevId} {c : ChanId} (hc : (s.dev d).chan = some c) (hk : (s.chan c).kind = .leo)
    (hidle : (s.dev d).busy = false) (hup : (s.dev d).linkUp = true) (hcap : 0 < (s.dev d).cap)
    {p p' : Bytes} {m m' : Mac48} {proto proto' : UInt16}
    (h1 : step E s (.send d p (.mac m) proto) = .ok s1) (h2 : step E s (.send d p' (.mac m') proto') = .ok s2) :
    receivers (newLog s s1) = receivers (newLog s s2) := by
  have hi := inv_exec (inv_initial h0) hex
  have hw := wired_exec (wired_initial h0) hex
  rw [send_receivers hi hw hc hidle hup hcap h1, send_receivers hi hw hc hidle hup hcap h2]
  have : audience s c (s.dev d).chanSlot (.mac m) = audience s c (s.dev d).chanSlot (.mac m') := by
    unfold audience; simp only [hk]
  rw [this]

example :
    let pre : List Op := [.attach 0 0, .attach 1 0, .attach 3 0]
    Demo.check Demo.env Demo.sys (pre ++ [.send 0 [1] (.mac (Demo.mac 2)) 1]) (fun s => receivers s.log == [1, 3]) = true ∧
    Demo.check Demo.env Demo.sys (pre ++ [.send 0 [1] (.mac (Demo.mac 77)) 1]) (fun s => receivers s.log == [1, 3]) = true := by
  decide +kernel

/-! ### C18, C19 -/

/-- **C18.** A frame for an address owned by a device attached to the ISL channel is handed over to the first such
device and nobody else, iff it is reachable. -/
theorem C18_unicast_first_owner {E : Env} {s s' : Sys} {c : ChanId} {f : Bytes} {slot i : Nat} {m : Mac48} {t : Time}
    {b : Bool} {src dst : DevId} (hk : (s.chan c).kind = .isl) (hsrc : (s.chan c).link[slot]? = some src)
    (hdst : (s.chan c).link[i]? = some dst) (hadr : (s.dev dst).addr = m)
    (hfirst : ∀ j x, j < i → (s.chan c).link[j]? = some x → (s.dev x).addr ≠ m)
    (h : chanTransmit E s c f slot (.mac m) t = .ok (s', b)) :
    ∃ L, Delivered s s' c f src t L ∧ (b = true ↔ Reachable E s c src dst) ∧
      (∀ y, reachDev E s c src t dst = some y → L = [(dst, y)]) ∧ (¬ Reachable E s c src dst → L = []) := by
  obtain ⟨h1, h2⟩ := chanTransmit_hits hsrc h
  have hfind : (s.chan c).link.find? (fun d => Addr.mac (s.dev d).addr = .mac m) = some dst := by
    rw [List.find?_eq_some_iff_getElem]
    refine ⟨by simp [hadr], i, (List.getElem?_eq_some_iff.mp hdst).1, (List.getElem?_eq_some_iff.mp hdst).2, ?_⟩
    intro j hj
    have hjl : j < (s.chan c).link.length := Nat.lt_trans hj (List.getElem?_eq_some_iff.mp hdst).1
    have := hfirst j _ hj (List.getElem?_eq_getElem hjl)
    simp [this]
  have haud : audience s c slot (.mac m) = [dst] := by
    unfold audience
    simp only [hsrc, hk, hfind]
  have hnf : ¬ Floods s c slot (.mac m) := by
    rintro ⟨_, _, h3, h4⟩
    injection h3 with h3
    exact h4 dst (List.mem_of_getElem? hdst) (by rw [hadr, h3])
  rw [haud] at h1 h2
  simp only [hnf, or_false] at h2
  have hh : ∀ y, reachDev E s c src t dst = some y → hits E s c src t [dst] = [(dst, y)] := by
    intro y hy; simp [hits, hy]
  have hn : ¬ Reachable E s c src dst → hits E s c src t [dst] = [] := by
    intro hn
    rw [← reachDev_isSome_time E s c src t dst] at hn
    simp only [Option.isSome_iff_ne_none, ne_eq, not_not] at hn
    simp [hits, hn]
  refine ⟨_, h1, ?_, hh, hn⟩
  rw [h2, ← reachDev_isSome_time E s c src t dst]
  constructor
  · intro h3
    by_contra h4
    rw [reachDev_isSome_time] at h4
    exact h3 (hn h4)
  · intro h3
    obtain ⟨y, hy⟩ := Option.isSome_iff_exists.mp h3
    rw [hh y hy]; simp

/-- **C18.** A frame for a non-broadcast address that no attached device owns goes nowhere and is reported
as a failure. -/
theorem C18_unknown_unicast_fails {E : Env} {s : Sys} {c : ChanId} {f : Bytes} {slot : Nat} {m : Mac48} {t : Time}
    (hk : (s.chan c).kind = .isl) (hun : ∀ d ∈ (s.chan c).link, (s.dev d).addr ≠ m)
    (hb : m.bytes ≠ [0xff, 0xff, 0xff, 0xff, 0xff, 0xff]) :
    chanTransmit E s c f slot (.mac m) t = .ok (s, false) := by
  unfold chanTransmit islTransmit
  simp only [hk]
  split
  · rfl
  · have hfind : findByAddr s (.mac m) (s.chan c).link = none := by
      rw [findByAddr_eq, List.find?_eq_none]
      intro x hx
      simpa using hun x hx
    have hbc : m.isBroadcast = false := by
      rw [Bool.eq_false_iff]
      intro h
      rw [isBroadcast_iff] at h
      subst h
      exact hb rfl
    simp [hfind, hbc]

/-- **C19.** A broadcast (no attached device owning the broadcast address) is handed over exactly once for every
slot but the sender's whose device is reachable, in slot order, and to nobody else; the channel reports
success regardless. -/
theorem C19_broadcast_reaches_others {E : Env} {s s' : Sys} {c : ChanId} {f : Bytes} {slot : Nat} {t : Time}
    {b : Bool} {src : DevId} (hk : (s.chan c).kind = .isl) (hsrc : (s.chan c).link[slot]? = some src)
    (hno : ∀ d ∈ (s.chan c).link, (s.dev d).addr.bytes ≠ [0xff, 0xff, 0xff, 0xff, 0xff, 0xff])
    (h : chanTransmit E s c f slot (.mac Mac48.broadcast) t = .ok (s', b)) :
    b = true ∧ Delivered s s' c f src t
      (((s.chan c).link.eraseIdx slot).filterMap (fun x => (reachDev E s c src t x).map (fun y => (x, y)))) := by
  have hno' : ∀ d ∈ (s.chan c).link, (s.dev d).addr ≠ Mac48.broadcast := by
    intro d hd he
    exact hno d hd (by rw [he]; rfl)
  obtain ⟨h1, h2⟩ := chanTransmit_hits hsrc h
  have haud : audience s c slot (.mac Mac48.broadcast) = (s.chan c).link.eraseIdx slot := by
    unfold audience
    have : (s.chan c).link.find? (fun d => Addr.mac (s.dev d).addr = .mac Mac48.broadcast) = none := by
      rw [List.find?_eq_none]
      intro x hx
      simpa using hno' x hx
    simp only [hsrc, hk, this, if_true]
  rw [haud] at h1 h2
  refine ⟨?_, h1⟩
  rw [h2]
  exact Or.inr ⟨hk, by rw [hsrc]; rfl, rfl, hno'⟩

/-- If every device is attached once, every other device on the channel is reached exactly once. -/
theorem C19_each_other_device_once {E : Env} {s s' : Sys} {c : ChanId} {f : Bytes} {slot : Nat} {t : Time}
    {b : Bool} {src : DevId} (hk : (s.chan c).kind = .isl) (hsrc : (s.chan c).link[slot]? = some src)
    (hno : ∀ d ∈ (s.chan c).link, (s.dev d).addr.bytes ≠ [0xff, 0xff, 0xff, 0xff, 0xff, 0xff])
    (hnd : (s.chan c).link.Nodup) (h : chanTransmit E s c f slot (.mac Mac48.broadcast) t = .ok (s', b)) :
    (receivers (newLog s s')).Nodup ∧
      ∀ x, x ∈ receivers (newLog s s') ↔ x ∈ (s.chan c).link ∧ x ≠ src ∧ Reachable E s c src x := by
  obtain ⟨_, hD⟩ := C19_broadcast_reaches_others hk hsrc hno h
  have hrec : receivers (newLog s s') = (hits E s c src t ((s.chan c).link.eraseIdx slot)).map Prod.fst := by
    unfold newLog
    rw [hD.log, List.drop_left]
    have := receivers_entries s.now c f src t ((hits E s c src t ((s.chan c).link.eraseIdx slot)).map toRecv)
    rw [List.map_map, List.map_map] at this
    exact this
  have hsub := hits_sublist E s c src t ((s.chan c).link.eraseIdx slot)
  have hnd2 : ((s.chan c).link.eraseIdx slot).Nodup := hnd.sublist (List.eraseIdx_sublist _ _)
  rw [hrec]
  refine ⟨hnd2.sublist hsub, ?_⟩
  intro x
  rw [List.mem_map]
  have herase : x ∈ (s.chan c).link.eraseIdx slot ↔ x ∈ (s.chan c).link ∧ x ≠ src := by
    have hlt := (List.getElem?_eq_some_iff.mp hsrc).1
    have hget := (List.getElem?_eq_some_iff.mp hsrc).2
    rw [← hget, ← List.Nodup.erase_getElem hnd slot hlt, hnd.mem_erase_iff, and_comm]
  constructor
  · rintro ⟨⟨z, y⟩, hz, rfl⟩
    obtain ⟨h1, h2⟩ := mem_hits.mp hz
    exact ⟨(herase.mp h1).1, (herase.mp h1).2, by rw [← reachDev_isSome_time E s c src t, h2]; rfl⟩
  · rintro ⟨h1, h2, h3⟩
    rw [← reachDev_isSome_time E s c src t] at h3
    obtain ⟨y, hy⟩ := Option.isSome_iff_exists.mp h3
    exact ⟨(x, y), mem_hits.mpr ⟨herase.mpr ⟨h1, h2⟩, hy⟩, rfl⟩

/-- Unicast, unknown address and broadcast on an ISL channel with three devices. -/
example :
    let pre : List Op := [.attach 1 1, .attach 3 1, .attach 5 1]
    Demo.check Demo.env Demo.sys (pre ++ [.send 3 [1] (.mac (Demo.mac 6)) 1]) (fun s => receivers s.log == [5]) = true ∧
    Demo.check Demo.env Demo.sys (pre ++ [.send 3 [1] (.mac (Demo.mac 77)) 1]) (fun s => receivers s.log == [] &&
      s.log.any (fun e => match e.2 with | .phyTxDrop 3 _ => true | _ => false)) = true ∧
    Demo.check Demo.env Demo.sys (pre ++ [.send 3 [1] (.mac Mac48.broadcast) 1]) (fun s => receivers s.log == [1, 5]) = true := by
  decide +kernel

/-! ### C20, C21 -/

/-- The intended property C20: a broadcast on an ISL channel is handed over to every other reachable attached device. -/
def BroadcastReachesAll (E : Env) : Prop :=
  ∀ (s0 : Sys) (ops : List Op) (s s' : Sys) (c : ChanId) (f : Bytes) (slot : Nat) (t : Time) (b : Bool) (src x : DevId),
    Initial s0 → exec E s0 ops = .ok s → (s.chan c).kind = .isl → (s.chan c).link[slot]? = some src →
    chanTransmit E s c f slot (.mac Mac48.broadcast) t = .ok (s', b) →
    x ∈ (s.chan c).link → x ≠ src → Reachable E s c src x → x ∈ receivers (newLog s s')

/-- C20 is false of the code: one device left with the default address captures all broadcasts. -/
theorem C20_default_address_captures_broadcast : ¬ BroadcastReachesAll Demo.env := by
  intro hall
  have hrun : Demo.check Demo.env Demo.sys
      [.setAddress 5 (.mac Mac48.broadcast), .attach 1 1, .attach 5 1, .attach 3 1]
      (fun s => decide ((s.chan 1).kind = .isl) && decide ((s.chan 1).link = [1, 5, 3]) &&
        decide (Reachable Demo.env s 1 1 3) &&
        (match chanTransmit Demo.env s 1 [9] 0 (.mac Mac48.broadcast) 1 with
         | .ok (s', _) => !(receivers (newLog s s')).contains 3
         | .fail _ => false)) = true := by
    decide +kernel
  obtain ⟨s, hex, htest⟩ := Demo.exists_of_check hrun
  simp only [Bool.and_eq_true, decide_eq_true_eq] at htest
  obtain ⟨⟨⟨h1, h2⟩, h3⟩, h4⟩ := htest
  split at h4
  · rename_i s' b hct
    have := hall Demo.sys _ s s' 1 [9] 0 1 b 1 3 Demo.sys_initial hex h1 (by rw [h2]; rfl) hct (by rw [h2]; simp)
      (by decide) h3
    simp [this] at h4
  · cases h4

/-- What the code does instead, in general: the first attached device with the broadcast address gets the
frame (if reachable), all others nothing. -/
theorem C20_capture_law {E : Env} {s s' : Sys} {c : ChanId} {f : Bytes} {slot i : Nat} {t : Time}
    {b : Bool} {src dst : DevId} (hk : (s.chan c).kind = .isl) (hsrc : (s.chan c).link[slot]? = some src)
    (hdst : (s.chan c).link[i]? = some dst) (hadr : (s.dev dst).addr = Mac48.broadcast)
    (hfirst : ∀ j x, j < i → (s.chan c).link[j]? = some x → (s.dev x).addr ≠ Mac48.broadcast)
    (h : chanTransmit E s c f slot (.mac Mac48.broadcast) t = .ok (s', b)) :
    ∀ x ∈ receivers (newLog s s'), x = dst := by
  obtain ⟨L, hD, _, h2, h3⟩ := C18_unicast_first_owner hk hsrc hdst hadr hfirst h
  have hrec : receivers (newLog s s') = L.map Prod.fst := by
    unfold newLog
    rw [hD.log, List.drop_left]
    have := receivers_entries s.now c f src t (L.map toRecv)
    rw [List.map_map, List.map_map] at this
    exact this
  intro x hx
  rw [hrec] at hx
  by_cases hr : Reachable E s c src dst
  · rw [← reachDev_isSome_time E s c src t] at hr
    obtain ⟨y, hy⟩ := Option.isSome_iff_exists.mp hr
    rw [h2 y hy] at hx
    simpa using hx
  · rw [h3 hr] at hx; cases hx

/-- C20 restricted to channels without a device with the default address holds. -/
theorem C20_broadcast_reaches_all_partial {E : Env} {s s' : Sys} {c : ChanId} {f : Bytes} {slot : Nat} {t : Time}
    {b : Bool} {src x : DevId} (hk : (s.chan c).kind = .isl) (hsrc : (s.chan c).link[slot]? = some src)
    (hno : ∀ d ∈ (s.chan c).link, (s.dev d).addr.bytes ≠ [0xff, 0xff, 0xff, 0xff, 0xff, 0xff])
    (h : chanTransmit E s c f slot (.mac Mac48.broadcast) t = .ok (s', b))
    (hx : x ∈ (s.chan c).link) (hne : x ≠ src) (hr : Reachable E s c src x) : x ∈ receivers (newLog s s') := by
  obtain ⟨_, hD⟩ := C19_broadcast_reaches_others hk hsrc hno h
  have hrec : receivers (newLog s s') = (hits E s c src t ((s.chan c).link.eraseIdx slot)).map Prod.fst := by
    unfold newLog
    rw [hD.log, List.drop_left]
    have := receivers_entries s.now c f src t ((hits E s c src t ((s.chan c).link.eraseIdx slot)).map toRecv)
    rw [List.map_map, List.map_map] at this
    exact this
  rw [hrec, List.mem_map]
  rw [← reachDev_isSome_time E s c src t] at hr
  obtain ⟨y, hy⟩ := Option.isSome_iff_exists.mp hr
  refine ⟨(x, y), mem_hits.mpr ⟨?_, hy⟩, rfl⟩
  rw [List.mem_eraseIdx_iff_getElem?]
  obtain ⟨i, hi⟩ := List.mem_iff_getElem?.mp hx
  refine ⟨i, ?_, hi⟩
  rintro rfl
  rw [hi] at hsrc; injection hsrc with hsrc; exact hne hsrc

/-- The intended property C21: a frame to a group address is handed over to every other reachable attached device. -/
def MulticastReachesAll (E : Env) : Prop :=
  ∀ (s0 : Sys) (ops : List Op) (s s' : Sys) (c : ChanId) (f : Bytes) (slot : Nat) (m : Mac48) (t : Time) (b : Bool)
    (src x : DevId), Initial s0 → exec E s0 ops = .ok s → (s.chan c).kind = .isl → (s.chan c).link[slot]? = some src →
    m.b0.toNat % 2 = 1 → chanTransmit E s c f slot (.mac m) t = .ok (s', b) →
    x ∈ (s.chan c).link → x ≠ src → Reachable E s c src x → x ∈ receivers (newLog s s')

/-- C21 is false of the code (witness: IPv4 multicast address 01:00:5e:00:00:01, two satellites). -/
theorem C21_multicast_not_delivered : ¬ MulticastReachesAll Demo.env := by
  intro hall
  have hrun : Demo.check Demo.env Demo.sys [.attach 1 1, .attach 3 1]
      (fun s => decide ((s.chan 1).kind = .isl) && decide ((s.chan 1).link = [1, 3]) &&
        decide (Reachable Demo.env s 1 1 3) &&
        (match chanTransmit Demo.env s 1 [9] 0 (.mac ⟨1, 0, 0x5e, 0, 0, 1⟩) 1 with
         | .ok (s', _) => !(receivers (newLog s s')).contains 3
         | .fail _ => false)) = true := by
    decide +kernel
  obtain ⟨s, hex, htest⟩ := Demo.exists_of_check hrun
  simp only [Bool.and_eq_true, decide_eq_true_eq] at htest
  obtain ⟨⟨⟨h1, h2⟩, h3⟩, h4⟩ := htest
  split at h4
  · rename_i s' b hct
    have := hall Demo.sys _ s s' 1 [9] 0 ⟨1, 0, 0x5e, 0, 0, 1⟩ 1 b 1 3 Demo.sys_initial hex h1 (by rw [h2]; rfl)
      (by decide) hct (by rw [h2]; simp) (by decide) h3
    simp [this] at h4
  · cases h4

/-- What the code does instead: a multicast frame whose group address is no device's own address never
reaches anybody on an ISL channel; the transmission is reported as failed. -/
theorem C21_multicast_law {E : Env} {s : Sys} {c : ChanId} {f : Bytes} {slot : Nat} {m : Mac48} {t : Time}
    (hk : (s.chan c).kind = .isl) (hun : ∀ d ∈ (s.chan c).link, (s.dev d).addr ≠ m)
    (_hgroup : m.b0.toNat % 2 = 1) (hb : m.bytes ≠ [0xff, 0xff, 0xff, 0xff, 0xff, 0xff]) :
    chanTransmit E s c f slot (.mac m) t = .ok (s, false) := C18_unknown_unicast_fails hk hun hb

/-- C21 on the LEO channel: a frame to a group address reaches the same devices as any other frame. -/
theorem C21_multicast_on_leo_partial {E : Env} {s : Sys} {c : ChanId} (hk : (s.chan c).kind = .leo)
    (f : Bytes) (slot : Nat) (m : Mac48) (_hgroup : m.b0.toNat % 2 = 1) (t : Time) :
    chanTransmit E s c f slot (.mac m) t = chanTransmit E s c f slot (.mac Mac48.broadcast) t :=
  C17_destination_irrelevant hk f slot _ _ t

/-! ### C22, C23, C24 -/

theorem members_step {E : Env} {s s' : Sys} {op : Op} {c : ChanId} {d : DevId} (hop : op ≠ .attach d c)
    (h : step E s op = .ok s') (hd : d ∉ members c s.log) : d ∉ members c s'.log := by
  rcases ids_step h with ⟨_, h2, _⟩ | ⟨x, c', rfl⟩ | ⟨c', slot, rfl⟩ | ⟨x, m, rfl⟩ | ⟨x, sd, rfl⟩
  · unfold members; rw [h2]; exact hd
  · obtain ⟨g, t, _, rfl⟩ := attach_ok h
    intro hm
    unfold members at hm
    simp only at hm
    rw [roster_attach] at hm
    split at hm
    · rename_i hc; subst hc
      rcases mem_members_attach.mp hm with hm | rfl
      · exact hd hm
      · exact hop rfl
    · exact hd hm
  · obtain ⟨_, _, _, _, _, hl, hlog, _, _, _, _⟩ := detach_view h
    intro hm
    unfold members at hm
    rw [hlog, roster_detach hl] at hm
    split at hm
    · simp only at hm
      split at hm
      · exact hd (List.mem_filter.mp hm).1
      · exact hd hm
    · exact hd hm
  · injection h with h; subst h; exact hd
  · injection h with h; subst h; exact hd

/-- **C22.** `Detach` of a valid id on a LEO channel returns true iff the link of the device was up, and brings it down. -/
theorem C22_detach_result {E : Env} {s s' : Sys} {c : ChanId} {slot : Nat} {d : DevId}
    (hd : (s.chan c).link[slot]? = some d) (h : step E s (.detach c slot) = .ok s') :
    (s'.dev d).linkUp = false ∧
      ∃ r, (s.now, Ev.detachRet c slot r) ∈ newLog s s' ∧ (r = true ↔ (s.dev d).linkUp = true) := by
  obtain ⟨_, _, r, l, _, _, hlog, _, _, hdown, hr⟩ := detach_view h
  refine ⟨hdown d hd, r, ?_, ?_⟩
  · unfold newLog; rw [hlog, List.drop_left]; simp
  · rw [hr]
    constructor
    · rintro ⟨d', h1, h2⟩; rw [hd] at h1; injection h1 with h1; subst h1; exact h2
    · intro h1; exact ⟨d, hd, h1⟩

/-- **C22.** In an orderly history, after `Detach` of a valid id on a LEO channel and until the device attaches
again, the channel hands no frame to the device and none from it, and none of its sends is accepted. -/
theorem C22_detached_is_isolated {E : Env} {s0 s s1 s' : Sys} {ops1 ops2 : List Op} {c : ChanId} {slot : Nat} {d : DevId}
    (h0 : Initial s0) (ho : OrderlyRun E s0 (ops1 ++ .detach c slot :: ops2)) (h1 : exec E s0 ops1 = .ok s)
    (hk : (s.chan c).kind = .leo) (hd : (slots c s.log)[slot]? = some d) (hdet : step E s (.detach c slot) = .ok s1)
    (hops : ∀ c', Op.attach d c' ∉ ops2) (h2 : exec E s1 ops2 = .ok s') :
    (∀ t f src dst tx del, (t, Ev.txrx c f src dst tx del) ∈ newLog s1 s' → dst ≠ d ∧ src ≠ d) ∧
      accepted d s'.log = accepted d s1.log := by
  have ho1 : OrderlyRun E s0 ops1 := by
    rintro p1 q p2 u rfl hu
    exact ho p1 q (p2 ++ .detach c slot :: ops2) u (by simp) hu
  have hr := reached_exec h0 ho1 h1
  have hlink : (s.chan c).link[slot]? = some d := by rw [(hr.index c).link]; exact hd
  have hex1 : exec E s0 (ops1 ++ [.detach c slot]) = .ok s1 := by
    rw [exec_append, h1]; simp [exec, hdet]
  have hdown := (C22_detach_result (E := E) hlink hdet).1
  have hnm : d ∉ members c s1.log := by
    obtain ⟨_, _, _, _, _, hl, hlog, _⟩ := detach_view hdet
    unfold members
    rw [hlog, roster_detach hl, if_pos rfl]
    simp only [hd]
    simp
  refine ⟨?_, C08_down_link_accepts_nothing h0 hex1 hdown hops h2⟩
  -- induct over the remaining operations
  have key : ∀ (o : List Op) (done : List Op) (u u' : Sys), ops2 = done ++ o → exec E s1 done = .ok u →
      d ∉ members c u.log → exec E u o = .ok u' → (∃ l, u'.log = u.log ++ l ∧
        ∀ t f src dst tx del, (t, Ev.txrx c f src dst tx del) ∈ l → dst ≠ d ∧ src ≠ d) := by
    intro o
    induction o with
    | nil =>
      intro done u u' _ _ _ h; injection h with h; subst h
      exact ⟨[], by simp, by simp⟩
    | cons op o ih =>
      intro done u u' hsplit hdone hnm h
      simp only [exec] at h
      rw [Outcome.bind_eq_ok] at h
      obtain ⟨u1, h3, h4⟩ := h
      have hexu : exec E s0 (ops1 ++ .detach c slot :: done) = .ok u := by
        rw [exec_append, h1]; simp [exec, hdet, hdone]
      have hou : OrderlyRun E s0 (ops1 ++ .detach c slot :: done) := by
        intro p1 q p2 v hv hv'
        refine ho p1 q (p2 ++ op :: o) v ?_ hv'
        rw [hsplit]
        have := congrArg (· ++ op :: o) hv
        simpa using this
      have hru := reached_exec h0 hou hexu
      have hne : op ≠ .attach d c := by
        rintro rfl
        exact hops c (by rw [hsplit]; simp)
      obtain ⟨l, hl1, hl2⟩ := ih (done ++ [op]) u1 u' (by rw [hsplit]; simp)
        (by rw [exec_append, hdone]; simp [exec, h3]) (members_step hne h3 hnm) h4
      have hpre := log_prefix_step hru.inv hru.wired h3
      refine ⟨newLog u u1 ++ l, by rw [hl1, hpre, List.append_assoc], ?_⟩
      intro t f src dst tx del hm
      rcases List.mem_append.mp hm with hm | hm
      · obtain ⟨dest, pw, _, g2, g3, -⟩ := txrx_step hru.inv hru.wired h3 hm
        have hku : (u.chan c).kind = .leo := by
          rw [kind_exec hdone c, kind_step hdet c]; exact hk
        obtain ⟨g4, g5, _⟩ := ((audience_leo (hru.index c) hku g2).1 dst).mp g3
        exact ⟨fun h => hnm (h ▸ g5), fun h => hnm (h ▸ g4)⟩
      · exact hl2 t f src dst tx del hm
  obtain ⟨l, hl1, hl2⟩ := key ops2 [] s1 s' rfl rfl hnm h2
  intro t f src dst tx del hm
  unfold newLog at hm
  rw [hl1, List.drop_left] at hm
  exact hl2 t f src dst tx del hm

/-- Satellite 3 is detached between two sends of ground 0. -/
example : Demo.check Demo.env Demo.sys
    [.attach 0 0, .attach 3 0, .attach 1 0, .send 0 [7] (.mac (Demo.mac 3)) 5, .detach 0 1, .run, .run, .run,
     .send 0 [8] (.mac (Demo.mac 3)) 5, .send 3 [9] (.mac (Demo.mac 1)) 5, .run, .run]
    (fun s => receivers s.log == [1, 3, 1] && (accepted 3 s.log).length == 0) = true := by decide +kernel

/-- The intended property C23: after `Detach` on an ISL channel and until the device attaches again, the channel
hands no frame to it. -/
def IslDetachIsolates (E : Env) : Prop :=
  ∀ (s0 s s1 s' : Sys) (ops1 ops2 : List Op) (c : ChanId) (slot : Nat) (d : DevId), Initial s0 →
    exec E s0 ops1 = .ok s → (s.chan c).kind = .isl → (s.chan c).link[slot]? = some d →
    step E s (.detach c slot) = .ok s1 → (∀ c', Op.attach d c' ∉ ops2) → exec E s1 ops2 = .ok s' →
    ∀ t f src tx del, (t, Ev.txrx c f src d tx del) ∉ newLog s1 s'

/-- C23 is false of the code: a broadcast after the detach is still handed over to the detached device. -/
theorem C23_detached_isl_device_still_receives : ¬ IslDetachIsolates Demo.env := by
  intro hall
  have hrun : Demo.check Demo.env Demo.sys [.attach 1 1, .attach 3 1]
      (fun s => decide ((s.chan 1).kind = .isl) && decide ((s.chan 1).link[1]? = some 3) &&
        (match step Demo.env s (.detach 1 1) with
         | .ok s1 =>
           (match exec Demo.env s1 [.send 1 [9] (.mac Mac48.broadcast) 1] with
            | .ok s' => (newLog s1 s').any (fun e => match e.2 with | .txrx 1 _ _ 3 _ _ => true | _ => false)
            | .fail _ => false)
         | .fail _ => false)) = true := by
    decide +kernel
  obtain ⟨s, hex, htest⟩ := Demo.exists_of_check hrun
  simp only [Bool.and_eq_true, decide_eq_true_eq] at htest
  obtain ⟨⟨h1, h2⟩, h4⟩ := htest
  split at h4
  · rename_i s1 hs1
    split at h4
    · rename_i s' hs'
      have := hall Demo.sys s s1 s' _ _ 1 1 3 Demo.sys_initial hex h1 h2 hs1 (by simp) hs'
      rw [List.any_eq_true] at h4
      obtain ⟨⟨t, e⟩, he, hm⟩ := h4
      split at hm
      · rename_i heq
        simp only at heq
        rw [heq] at he
        exact this _ _ _ _ _ he
      · cases hm
    · cases h4
  · cases h4

/-- What the code does instead: `Detach` on an ISL channel leaves the recipients of every later transmission
as they were. -/
theorem C23_detach_changes_no_recipients {E : Env} {s s1 : Sys} {c : ChanId} {slot : Nat}
    (hk : (s.chan c).kind = .isl) (h : step E s (.detach c slot) = .ok s1) (c' : ChanId) (sl : Nat) (dest : Addr) :
    audience s1 c' sl dest = audience s c' sl dest := by
  obtain ⟨g, t, _, _, hgt, _, _, hch, hdev, _⟩ := detach_view h
  apply audience_congr
  · rw [hch]
    funext x
    by_cases hx : x = c
    · subst hx
      rcases hgt with ⟨_, rfl, rfl⟩ | ⟨hk', _⟩
      · simp
      · rw [hk] at hk'; cases hk'
    · simp [hx]
  · intro x; exact (hdev x).1

/-- C23, the part that holds: a detached ISL device has no new sends accepted until it attaches again, and `Detach`
returns true iff its link was up (`C22_detach_result` holds for both channel kinds). -/
theorem C23_detached_isl_sends_nothing_partial {E : Env} {s0 s s1 s' : Sys} {ops1 ops2 : List Op} {c : ChanId} {slot : Nat}
    {d : DevId} (h0 : Initial s0) (h1 : exec E s0 ops1 = .ok s) (hd : (s.chan c).link[slot]? = some d)
    (hdet : step E s (.detach c slot) = .ok s1) (hops : ∀ c', Op.attach d c' ∉ ops2) (h2 : exec E s1 ops2 = .ok s') :
    accepted d s'.log = accepted d s1.log := by
  have hex1 : exec E s0 (ops1 ++ [.detach c slot]) = .ok s1 := by
    rw [exec_append, h1]; simp [exec, hdet]
  exact C08_down_link_accepts_nothing h0 hex1 (C22_detach_result (E := E) hd hdet).1 hops h2

/-- The intended property C24: with an id that was never assigned, `Detach` and `TransmitStart` return false and
change nothing. -/
def InvalidIdsHarmless (E : Env) : Prop :=
  ∀ (s : Sys) (c : ChanId) (slot : Nat), (s.chan c).link.length ≤ slot →
    step E s (.detach c slot) = .ok (s.emit (.detachRet c slot false)) ∧
    ∀ f dest t, chanTransmit E s c f slot dest t = .ok (s, false)

/-- C24 is false of the code: on every LEO channel, `Detach` of an id that was never assigned reads beyond the end
of the device vector. -/
theorem C24_leo_detach_out_of_range {E : Env} {s : Sys} {c : ChanId} {slot : Nat} (hk : (s.chan c).kind = .leo)
    (h : (s.chan c).link.length ≤ slot) :
    step E s (.detach c slot) = .fail .indexOutOfRange ∧ Fault.indexOutOfRange.isUb = true := by
  refine ⟨?_, rfl⟩
  simp [step, detach, hk, List.getElem?_eq_none h]

theorem C24_invalid_ids_not_harmless : ¬ InvalidIdsHarmless Demo.env := by
  intro hall
  have h1 := (hall Demo.sys 0 0 (Nat.le_refl _)).1
  rw [(C24_leo_detach_out_of_range (E := Demo.env) (s := Demo.sys) (c := 0) (slot := 0) rfl (Nat.le_refl _)).1] at h1
  cases h1

/-- C24, the part that holds: `Detach` on ISL channels, `TransmitStart` on both. -/
theorem C24_invalid_ids_harmless_partial {E : Env} {s : Sys} {c : ChanId} {slot : Nat}
    (h : (s.chan c).link.length ≤ slot) :
    ((s.chan c).kind = .isl → step E s (.detach c slot) = .ok (s.emit (.detachRet c slot false))) ∧
    ∀ f dest t, chanTransmit E s c f slot dest t = .ok (s, false) := by
  refine ⟨fun hk => ?_, fun f dest t => chanTransmit_invalid (List.getElem?_eq_none h)⟩
  simp [step, detach, baseDetach, hk, List.getElem?_eq_none h]

example : (Demo.sys.chan 1).link.length ≤ 7 ∧ (Demo.sys.chan 1).kind = .isl := by decide

/-! ### C27 -/

/-- **C27.** For devices on nodes, the channel refuses the pair iff both nodes have positions, there is a loss
model and the power it yields is below -900 dBm; then nothing changes.  Otherwise the frame is handed
over unmodified, with the power of the loss model, or the transmit power if there is none or a position is missing. -/
theorem C27_only_unreachable_pairs_refused {E : Env} {s : Sys} {c : ChanId} {f : Bytes} {src dst : DevId} {t : Time}
    {ns nd : NodeId} (hns : (s.dev src).node = some ns) (hnd : (s.dev dst).node = some nd) :
    ∃ s' b, deliver E s c f src dst t = .ok (s', b) ∧
      (b = false ↔ E.hasMob ns = true ∧ E.hasMob nd = true ∧ ∃ l, E.loss c = some l ∧ l (s.dev src).txPower ns nd s.now < -900) ∧
      (b = false → s' = s) ∧
      (b = true → ∃ del pw, Delivered s s' c f src t [(dst, del, pw)] ∧
        (∀ l, E.loss c = some l → E.hasMob ns = true → E.hasMob nd = true → pw = l (s.dev src).txPower ns nd s.now) ∧
        (E.loss c = none ∨ E.hasMob ns = false ∨ E.hasMob nd = false → pw = (s.dev src).txPower)) := by
  have hrec : recvOf E s c src t dst = (reach E s.now c (s.dev src).txPower ns nd t).map (fun x => ⟨dst, x.1, x.2⟩) := by
    unfold recvOf; simp only [hns, hnd]
  rw [deliver_eq, if_pos (by simp [hns, hnd])]
  refine ⟨_, _, rfl, ?_⟩
  rw [hrec]
  cases hr : reach E s.now c (s.dev src).txPower ns nd t with
  | none =>
    simp only [Option.map_none, Option.isSome_none, Option.toList_none, addRecvs_nil, true_iff, forall_const,
      Bool.false_eq_true, false_implies, and_true]
    unfold reach at hr
    split at hr
    · rename_i h1 h2
      simp only at hr
      split at hr
      · cases hr
      · rename_i l hl
        split at hr
        · cases hr
        · rename_i hlt
          exact ⟨h1, h2, l, hl, Rat.not_le.mp hlt⟩
    · cases hr
  | some y =>
    simp only [Option.map_some, Option.isSome_some, Option.toList_some, Bool.true_eq_false, false_iff, false_implies,
      true_and, forall_const]
    refine ⟨?_, y.1, y.2, delivered_addRecvs s c f src t [(dst, y.1, y.2)], ?_, ?_⟩
    · rintro ⟨h1, h2, l, hl, hlt⟩
      unfold reach at hr
      simp only [h1, h2, hl, if_neg (Rat.not_le.mpr hlt)] at hr
      cases hr
    · intro l hl h1 h2
      unfold reach at hr
      simp only [h1, h2, hl] at hr
      split at hr
      · injection hr with hr; rw [← hr]
      · cases hr
    · intro hor
      unfold reach at hr
      split at hr
      · rename_i h1 h2
        rcases hor with hl | h | h
        · simp only [hl] at hr; injection hr with hr; rw [← hr]
        · rw [h1] at h; cases h
        · rw [h2] at h; cases h
      · injection hr with hr; rw [← hr]

/-- Both outcomes occur. -/
example :
    let E := { Demo.env with hasMob := fun _ => true, loss := fun _ => some fun p _ n _ => if n = 3 then -901 else p - 901 }
    (match deliver E Demo.sys 0 [1] 0 3 5 with | .ok (_, b) => b == false | .fail _ => false) = true ∧
    (match deliver E Demo.sys 0 [1] 0 1 5 with
     | .ok (s', b) => b && s'.pending == [⟨0, .receive 1 [1] 0 (-900)⟩] | .fail _ => false) = true := by
  decide +kernel

end Verif
