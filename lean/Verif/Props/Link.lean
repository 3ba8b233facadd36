import Verif.Model.Query
import Verif.Lemmas.Link
import Verif.Props.EndToEnd
/-!
# Link states, device ids and group addresses (C78, C79, C80)
-/

namespace Verif
open Spec

/-! ## C78 -/

/-- **C78, the state**: the link of a device is up iff the device was attached and has not been detached since. -/
theorem C78_link_state {E : Env} {s0 s : Sys} {ops : List Op} (h0 : Initial s0) (h : exec E s0 ops = .ok s) (d : DevId) :
    isLinkUp s d = true ↔ LinkIsUp d s.log := (linkInv_exec h0 h).up d

open Classical in
/-- **C78, the notices**: the listeners are told of every change of the link state, once and when it is in effect.  They
are told nothing else, except that an `Attach` of a device whose link is up already is reported, too. -/
theorem C78_changes_are_reported {E : Env} {s s' : Sys} {op : Op} (h : step E s op = .ok s') (d : DevId) :
    linkNotices d s'.log = linkNotices d s.log +
      (if isLinkUp s' d ≠ isLinkUp s d ∨ ∃ c, op = .attach d c then 1 else 0) ∧
    ((∃ c, op = .attach d c) → isLinkUp s' d = true) := by
  unfold isLinkUp
  rcases linkQuiet_step h with ⟨⟨l, hlog, hl⟩, hdev, _⟩ | ⟨x, c, rfl⟩ | ⟨c, slot, rfl⟩
  · have hna : ¬ ∃ c, op = .attach d c := by
      rintro ⟨c, rfl⟩
      obtain ⟨g, t, _, rfl⟩ := attach_ok h
      simp only [List.append_cancel_left_eq] at hlog
      subst hlog
      exact hl _ (List.mem_cons_self ..)
    refine ⟨?_, fun h => absurd h hna⟩
    rw [if_neg (by rintro (h | h); exacts [h (hdev d).1, hna h])]
    unfold linkNotices
    rw [hlog, List.filter_append]
    have : l.filter (fun e => decide (e.2 = .linkChange d)) = [] := by
      rw [List.filter_eq_nil_iff]
      intro e he hd
      rw [decide_eq_true_eq] at hd
      have := hl e he
      rw [hd] at this; exact this
    rw [this]; simp
  · obtain ⟨g, t, _, rfl⟩ := attach_ok h
    by_cases hd : d = x
    · subst hd
      refine ⟨?_, by simp⟩
      rw [if_pos (Or.inr ⟨c, rfl⟩)]
      simp [linkNotices, List.filter_append]
    · refine ⟨?_, ?_⟩
      · rw [if_neg]
        · have : ¬ x = d := fun h => hd h.symm
          simp [linkNotices, List.filter_append, this]
        · rintro (h | ⟨c', h⟩)
          · exact h (by simp [hd])
          · injection h with h _; exact hd h.symm
      · rintro ⟨c', h⟩
        injection h with h _; exact absurd h.symm hd
  · refine ⟨?_, by rintro ⟨c', h⟩; cases h⟩
    obtain ⟨g, t, _, hcase⟩ := detach_ok h
    rcases hcase with ⟨y, hy, hup, rfl⟩ | ⟨_, rfl⟩
    · by_cases hd : d = y
      · subst hd
        rw [if_pos (Or.inl (by simp [hup]))]
        simp [linkNotices, List.filter_append]
      · rw [if_neg]
        · have : ¬ y = d := fun h => hd h.symm
          simp [linkNotices, List.filter_append, this]
        · rintro (h | ⟨c', h⟩)
          · exact h (by simp [hd])
          · cases h
    · rw [if_neg]
      · simp [linkNotices, List.filter_append]
      · rintro (h | ⟨c', h⟩)
        · exact h rfl
        · cases h

/-- A device is attached, detached twice, and attached again: three notices. -/
example : Demo.check Demo.env Demo.sys [.attach 1 1, .attach 3 1, .detach 1 0, .detach 1 0, .attach 1 2]
    (fun s => linkNotices 1 s.log == 3 && isLinkUp s 1 && linkNotices 3 s.log == 1) = true := by decide +kernel

/-- The intended property: the link of a device is up iff the device is attached to a channel. -/
def LinkUpIffAttached (E : Env) : Prop :=
  ∀ (s0 s : Sys) (ops : List Op) (d : DevId), Initial s0 → exec E s0 ops = .ok s →
    (isLinkUp s d = true ↔ ∃ c, d ∈ members c s.log)

/-- **C78 is false of the code** in one direction: a device attached to two channels is taken down by the detachment from
one of them, even from one it does not use. -/
theorem C78_link_up_iff_attached_false : ¬ LinkUpIffAttached Demo.env := by
  intro hall
  obtain ⟨s, hs, ht⟩ := Demo.exists_of_check (E := Demo.env) (s := Demo.sys)
    (ops := [.attach 1 1, .attach 1 2, .detach 1 0])
    (test := fun s => decide (isLinkUp s 1 = false ∧ 1 ∈ members 2 s.log ∧ (s.dev 1).chan = some 2)) (by decide +kernel)
  rw [decide_eq_true_eq] at ht
  have := (hall Demo.sys s _ 1 Demo.sys_initial hs).mpr ⟨2, ht.2.1⟩
  rw [ht.1] at this; cases this

/-- C78, the other direction holds always: a device whose link is up is attached to the channel it uses. -/
theorem C78_up_is_attached {E : Env} {s0 s : Sys} {ops : List Op} (h0 : Initial s0) (h : exec E s0 ops = .ok s) {d : DevId}
    (hup : isLinkUp s d = true) : ∃ c, (s.dev d).chan = some c ∧ d ∈ members c s.log :=
  (linkInv_exec h0 h).member d hup

theorem oneChannel_exec {E : Env} {d : DevId} {s0 : Sys} (h0 : Initial s0) : ∀ (ops rest : List Op) {s : Sys},
    OneChannel E d s0 (ops ++ rest) → exec E s0 ops = .ok s →
    ∀ c c', d ∈ members c s.log → isLinkUp s d = true ∧ (d ∈ members c' s.log → c' = c) := by
  intro ops
  induction hn : ops.length generalizing ops with
  | zero =>
    intro rest s _ h c c' hm
    rw [List.length_eq_zero_iff] at hn
    subst hn
    injection h with h; subst h
    rw [h0.log] at hm; cases hm
  | succ n ih =>
    intro rest s hone h c c' hm
    obtain ⟨pre, op, rfl⟩ : ∃ pre op, ops = pre ++ [op] := by
      have hne : ops ≠ [] := by intro e; rw [e] at hn; cases hn
      exact ⟨ops.dropLast, ops.getLast hne, (List.dropLast_concat_getLast hne).symm⟩
    rw [exec_append, Outcome.bind_eq_ok] at h
    obtain ⟨s1, h1, h2⟩ := h
    simp only [exec] at h2
    rw [Outcome.bind_eq_ok] at h2
    obtain ⟨s2, h2, h3⟩ := h2
    injection h3 with h3; subst h3
    have hl : pre.length = n := by simpa using hn
    have ih' := ih pre hl (op :: rest) (by simpa using hone) h1
    have hinv := linkInv_exec h0 h1
    unfold isLinkUp at ih' ⊢
    rcases linkQuiet_step h2 with ⟨⟨l, hlog, hl⟩, hdev, _⟩ | ⟨x, c1, rfl⟩ | ⟨c1, slot, rfl⟩
    · have hme : ∀ c, members c s2.log = members c s1.log := fun c => by
        unfold members; rw [hlog, roster_append_free fun e he => (hl e he).roster]
      rw [hme] at hm ⊢
      rw [(hdev d).1]
      exact ih' c c' hm
    · obtain ⟨g, t, _, rfl⟩ := attach_ok h2
      have hme : ∀ c', members c' (s1.log ++ [(s1.now, .linkChange x), (s1.now, .attachRet x c1 (s1.chan c1).link.length)]) =
          if c1 = c' then (if x ∈ members c' s1.log then members c' s1.log else members c' s1.log ++ [x])
          else members c' s1.log := by
        intro c'
        unfold members
        rw [roster_attach]
        split <;> rfl
      by_cases hx : d = x
      · subst hx
        have hno := hone.attach pre c1 rest s1 (by simp) h1
        have one : ∀ c', d ∈ members c' (s1.log ++ [(s1.now, .linkChange d),
            (s1.now, .attachRet d c1 (s1.chan c1).link.length)]) → c' = c1 := by
          intro c' hm'
          rw [hme] at hm'
          by_cases hc : c1 = c'
          · exact hc.symm
          · rw [if_neg hc] at hm'; exact absurd hm' (hno c')
        refine ⟨by simp, fun hm' => ?_⟩
        rw [one c hm, one c' hm']
      · have same : ∀ c', d ∈ members c' (s1.log ++ [(s1.now, .linkChange x),
            (s1.now, .attachRet x c1 (s1.chan c1).link.length)]) ↔ d ∈ members c' s1.log := by
          intro c'
          rw [hme]
          split
          · split
            · rfl
            · simp [hx]
          · rfl
        simp only at hm ⊢
        rw [same] at hm
        rw [if_neg hx, same]
        exact ih' c c' hm
    · obtain ⟨g, t, r, l, _, hl, hlog, _⟩ := detach_view h2
      have hme : ∀ c', d ∈ members c' s2.log ↔
          d ∈ members c' s1.log ∧ ¬ (c' = c1 ∧ (slots c1 s1.log)[slot]? = some d) := by
        intro c'
        unfold members
        rw [hlog, roster_detach hl]
        by_cases hc : c1 = c'
        · subst hc
          rw [if_pos rfl]
          simp only [true_and]
          cases hq : (slots c1 s1.log)[slot]? with
          | none => simp [members]
          | some y =>
            simp only [List.mem_filter, members, decide_eq_true_eq, Option.some.injEq]
            exact and_congr_right fun _ => ⟨fun h k => h k.symm, fun h k => h k.symm⟩
        · rw [if_neg hc]
          simp [Ne.symm hc, members]
      rw [hme] at hm
      obtain ⟨h4, h5⟩ := ih' c c' hm.1
      refine ⟨?_, fun hm' => h5 ((hme c').mp hm').1⟩
      obtain ⟨g', t', _, hcase⟩ := detach_ok h2
      rcases hcase with ⟨y, hy, hup, rfl⟩ | ⟨_, rfl⟩
      · by_cases hd : d = y
        · subst hd
          exfalso
          rw [hinv.link] at hy
          have hc := (ih' c c1 hm.1).2 (hone.detach pre c1 slot rest s1 (by simp) h1 hy)
          exact hm.2 ⟨hc.symm, hy⟩
        · simp only [if_neg hd]; exact h4
      · exact h4

/-- C78 for devices that are attached to one channel at a time. -/
theorem C78_link_up_iff_attached_partial {E : Env} {s0 s : Sys} {ops : List Op} (h0 : Initial s0)
    (h : exec E s0 ops = .ok s) {d : DevId} (hone : OneChannel E d s0 ops) :
    isLinkUp s d = true ↔ ∃ c, d ∈ members c s.log := by
  constructor
  · intro hup
    obtain ⟨c, _, hm⟩ := C78_up_is_attached h0 h hup
    exact ⟨c, hm⟩
  · rintro ⟨c, hm⟩
    exact (oneChannel_exec h0 ops [] (by simpa using hone) h c c hm).1

/-- The hypothesis is met by a device that moves from one channel to another. -/
example : OneChannel Demo.env 1 Demo.sys [.attach 1 1, .detach 1 0, .attach 1 2] := by
  constructor
  · intro o1 c o2 s1 hs hx
    match o1, hs with
    | [], _ => injection hx with hx; subst hx; intro c' h; cases h
    | [a, b], hs =>
      simp only [List.cons_append, List.nil_append, List.cons.injEq] at hs
      obtain ⟨rfl, rfl, _⟩ := hs
      injection hx with hx
      subst hx
      intro c'
      by_cases hc : c' = 1
      · subst hc; decide +kernel
      · have : members c' [(0, .linkChange 1), (0, .attachRet 1 1 0), (0, .linkChange 1), (0, .detachRet 1 0 true)] = [] := by
          have : ¬ (1 : Nat) = c' := fun h => hc h.symm
          simp [members, roster, rosterStep, this]
        intro hm
        exact absurd (this ▸ hm) (by simp)
    | [a], hs => simp at hs
    | a :: b :: e :: rest, hs => simp at hs
  · intro o1 c slot o2 s1 hs hx _
    match o1, hs with
    | [a], hs =>
      simp only [List.cons_append, List.nil_append, List.cons.injEq, Op.detach.injEq] at hs
      obtain ⟨rfl, ⟨rfl, rfl⟩, _⟩ := hs
      injection hx with hx
      subst hx
      decide +kernel
    | [], hs => simp at hs
    | [a, b], hs => simp at hs
    | a :: b :: e :: rest, hs => simp at hs

/-! ## C79 -/

/-- **C79**: the ids returned by `Attach` on a channel are 0, 1, 2, ... in the order of the calls; `GetNDevices` is their
number; `GetDevice` gives for each of them the device it was returned for, whatever happened since, and its behaviour is
undefined for all other numbers. -/
theorem C79_device_ids {E : Env} {s0 s : Sys} {ops : List Op} (h0 : Initial s0) (h : exec E s0 ops = .ok s) (c : ChanId) :
    (handedIds c s.log).map Prod.fst = List.range (getNDevices s c) ∧
      (∀ i d, (i, d) ∈ handedIds c s.log → getDevice s c i = .ok d) ∧
      (∀ i, (∀ d, (i, d) ∉ handedIds c s.log) → ∃ e, getDevice s c i = .fail e ∧ e.isUb = true) := by
  have hi := linkInv_exec h0 h
  have hmem : ∀ i d, (i, d) ∈ handedIds c s.log ↔ (s.chan c).link[i]? = some d := by
    intro i d
    rw [hi.ids, hi.link, List.mem_map]
    constructor
    · rintro ⟨⟨x, j⟩, h1, h2⟩
      injection h2 with h2 h3
      subst h2; subst h3
      exact List.mk_mem_zipIdx_iff_getElem?.mp h1
    · intro h1
      exact ⟨(d, i), List.mk_mem_zipIdx_iff_getElem?.mpr h1, rfl⟩
  refine ⟨?_, ?_, ?_⟩
  · unfold getNDevices
    rw [hi.ids, hi.link, List.map_map]
    rw [show ((Prod.fst : Nat × DevId → Nat) ∘ fun x : DevId × Nat => (x.2, x.1)) = Prod.snd from rfl, List.zipIdx_map_snd,
      List.range_eq_range']
  · intro i d hm
    unfold getDevice
    rw [(hmem i d).mp hm]
  · intro i hno
    unfold getDevice
    cases hq : (s.chan c).link[i]? with
    | none => exact ⟨_, rfl, rfl⟩
    | some d => exact absurd ((hmem i d).mpr hq) (hno d)

/-- The id with which a device transmits is one that was returned for it on its channel. -/
theorem C79_own_id {E : Env} {s0 s : Sys} {ops : List Op} (h0 : Initial s0) (h : exec E s0 ops = .ok s) {c : ChanId}
    {d : DevId} (hc : (s.dev d).chan = some c) : ((s.dev d).chanSlot, d) ∈ handedIds c s.log :=
  (linkInv_exec h0 h).last d c hc

/-- A device that is attached a second time has two ids and transmits with the second; ids of detached devices remain. -/
example : Demo.check Demo.env Demo.sys [.attach 1 1, .attach 3 1, .detach 1 0, .attach 1 1, .detach 1 1]
    (fun s => handedIds 1 s.log == [(0, 1), (1, 3), (2, 1)] && (s.dev 1).chanSlot == 2 && getNDevices s 1 == 3 &&
      members 1 s.log == [1]) = true := by decide +kernel

/-! ## C80 -/

/-- The intended property: a device maps groups to link-layer addresses as the standards say. -/
def GroupAddressesStandard : Prop := (∀ g, getMulticast4 g = rfc1112 g) ∧ ∀ a, getMulticast6 a = rfc2464 a

/-- **C80 is false of the code**: 224.0.0.1 must be mapped to 01:00:5e:00:00:01, ff02::1 to 33:33:00:00:00:01. -/
theorem C80_group_addresses_false :
    ¬ GroupAddressesStandard ∧ getMulticast4 0xe0000001#32 ≠ rfc1112 0xe0000001#32 ∧
      getMulticast6 0xff020000000000000000000000000001#128 ≠ rfc2464 0xff020000000000000000000000000001#128 := by
  have h : getMulticast4 0xe0000001#32 ≠ rfc1112 0xe0000001#32 := by decide
  exact ⟨fun h' => h (h'.1 _), h, by decide⟩

/-- What the code does is right exactly for groups whose low 23 (32) bits are zero. -/
theorem C80_group_addresses_law (g : BitVec 32) (a : BitVec 128) :
    (getMulticast4 g = rfc1112 g ↔ g.toNat % 2 ^ 23 = 0) ∧ (getMulticast6 a = rfc2464 a ↔ a.toNat % 2 ^ 32 = 0) := by
  have key : ∀ n : Nat, n < 256 → ((0 : UInt8) = UInt8.ofNat n ↔ n = 0) := by
    intro n hn
    constructor
    · intro h
      have := congrArg UInt8.toNat h
      simp only [UInt8.toNat_ofNat'] at this
      have h0 : (0 : UInt8).toNat = 0 := rfl
      omega
    · rintro rfl; rfl
  constructor
  · unfold getMulticast4 rfc1112
    simp only [Mac48.mk.injEq, true_and]
    generalize hn : g.toNat % 2 ^ 23 = n
    have hlt : n < 8388608 := by rw [← hn]; exact Nat.mod_lt _ (by decide)
    rw [key _ (by omega), key _ (by omega), key _ (by omega)]
    omega
  · unfold getMulticast6 rfc2464
    simp only [Mac48.mk.injEq, true_and]
    generalize hn : a.toNat % 2 ^ 32 = n
    have hlt : n < 4294967296 := by rw [← hn]; exact Nat.mod_lt _ (by decide)
    rw [key _ (by omega), key _ (by omega), key _ (by omega), key _ (by omega)]
    omega

/-- The low 23 bits are zero for 224.0.0.0 and 239.128.0.0, not for 224.0.0.5. -/
example : (0xe0000000#32).toNat % 2 ^ 23 = 0 ∧ (0xef800000#32).toNat % 2 ^ 23 = 0 ∧ (0xe0000005#32).toNat % 2 ^ 23 ≠ 0 := by
  decide

open Classical in
/-- C80, what holds: a packet for any group or for the broadcast address, sent over a quiet ground/space channel, is handed
up exactly once by every attached device of the other side that the models let it reach with enough power, and by
nobody else. -/
theorem C80_group_packet_on_leo_partial {E : Env} {s0 s : Sys} {ops : List Op} {d : DevId} {c : ChanId} {p : Bytes}
    {proto : UInt16} {m : Mac48} (hm : m = getBroadcast ∨ (∃ g, m = getMulticast4 g) ∨ ∃ a, m = getMulticast6 a)
    (hE : ErrorFree E) (h0 : Initial s0) (hpr : ProperRun E s0 ops) (h : exec E s0 ops = .ok s) (hp : s.pending = [])
    (hup : (s.dev d).linkUp = true) (hcap : 0 < (s.dev d).cap) (hlen : p.length ≤ 1492)
    (hc : (s.dev d).chan = some c) (hk : (s.chan c).kind = .leo) :
    ∃ n s', exec E s (.send d p (.mac m) proto :: List.replicate n .run) = .ok s' ∧ s'.pending = [] ∧
      ∀ x, upcallLog x s'.log = upcallLog x s.log ++
        if d ∈ members c s.log ∧ x ∈ members c s.log ∧ (s.dev x).side ≠ (s.dev d).side ∧
            (∃ del pw, reachDev E s c d 0 x = some (del, pw) ∧ (s.dev x).rxThreshold ≤ effectivePower (s.dev x) pw) then
          [(p, proto, (s.dev d).addr)] else [] := by
  obtain ⟨n, s', h1, h2, h3⟩ := C63_leo_packet (m := m) (proto := proto) hE h0 hpr h hp hup hcap hlen hc hk
  refine ⟨n, s', h1, h2, fun x => ?_⟩
  rw [h3 x]
  congr 1
  have hfor : ForMe m (s.dev x).addr := by
    rcases hm with rfl | ⟨g, rfl⟩ | ⟨a, rfl⟩
    · exact Or.inl rfl
    · exact Or.inr (Or.inr rfl)
    · exact Or.inr (Or.inr (by unfold getMulticast6; decide))
  have : (s.dev x).side ≠ (s.dev d).side → (Hears E s c d m x ↔
      ∃ del pw, reachDev E s c d 0 x = some (del, pw) ∧ (s.dev x).rxThreshold ≤ effectivePower (s.dev x) pw) := by
    intro hs
    unfold Hears TakesUp
    constructor
    · rintro ⟨⟨del, pw⟩, h4, _, h5, _⟩
      exact ⟨del, pw, h4, h5⟩
    · rintro ⟨del, pw, h4, h5⟩
      exact ⟨(del, pw), h4, fun e => hs (by rw [e]), h5, hfor⟩
  by_cases hs : (s.dev x).side ≠ (s.dev d).side
  · rw [this hs]
  · rw [if_neg fun h => hs h.2.2.1, if_neg fun h => hs h.2.2.1]

/-- All hypotheses are met: ground station 0 sends to 224.0.0.5. -/
example : ∃ s, exec Demo.env Demo.sys [.attach 0 0, .attach 1 0, .attach 3 0] = .ok s ∧ ErrorFree Demo.env ∧
    ProperRun Demo.env Demo.sys [.attach 0 0, .attach 1 0, .attach 3 0] ∧ s.pending = [] ∧ (s.dev 0).linkUp = true ∧
    0 < (s.dev 0).cap ∧ (s.dev 0).chan = some 0 ∧ (s.chan 0).kind = .leo ∧ 0 ∈ members 0 s.log ∧ 3 ∈ members 0 s.log ∧
    (s.dev 3).side ≠ (s.dev 0).side ∧
    (∃ del pw, reachDev Demo.env s 0 0 0 3 = some (del, pw) ∧ (s.dev 3).rxThreshold ≤ effectivePower (s.dev 3) pw) := by
  refine ⟨_, rfl, fun _ _ _ _ => rfl, demo_properRun _ ?_, rfl, rfl, by decide, rfl, rfl, by decide, by decide, by decide,
    ⟨0, 1, rfl, by decide +kernel⟩⟩
  intro op hop
  simp only [List.mem_cons, List.not_mem_nil, or_false] at hop
  rcases hop with rfl | rfl | rfl <;> exact ⟨_, _, rfl, by decide⟩

/-- On an inter-satellite channel a packet for a group reaches nobody, unless a device has the group's address as its
own. -/
theorem C80_group_packet_on_isl {E : Env} {s : Sys} {c : ChanId} {f : Bytes} {slot : Nat} {g : BitVec 32} {t : Time}
    (hk : (s.chan c).kind = .isl) (hun : ∀ d ∈ (s.chan c).link, (s.dev d).addr ≠ getMulticast4 g) :
    chanTransmit E s c f slot (.mac (getMulticast4 g)) t = .ok (s, false) :=
  C21_multicast_law hk hun (by unfold getMulticast4; decide) (by unfold getMulticast4; decide)

example : ∃ s, exec Demo.env Demo.sys [.attach 1 1, .attach 3 1] = .ok s ∧ (s.chan 1).kind = .isl ∧
    ∀ d ∈ (s.chan 1).link, (s.dev d).addr ≠ getMulticast4 0xe0000001#32 := ⟨_, rfl, rfl, by decide⟩

end Verif
