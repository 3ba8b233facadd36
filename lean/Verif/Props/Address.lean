import Verif.Props.Channel
import Verif.Lemmas.Queueing
/-!
# Changing and sharing link-layer addresses (C76, C77)

C15, C16 and C22 are about orderly use: a device changes its address only while it is not attached, and no two devices of
a channel share an address.  Here is what happens otherwise.
-/

namespace Verif
open Spec

/-- Who gets the frame of a `Send` on an idle device. -/
theorem mem_send_receivers {E : Env} {s s' : Sys} {d : DevId} {p : Bytes} {m : Mac48} {proto : UInt16} {c : ChanId}
    (hi : Inv s) (hw : Wired s) (hc : (s.dev d).chan = some c) (hidle : (s.dev d).busy = false)
    (hup : (s.dev d).linkUp = true) (hcap : 0 < (s.dev d).cap)
    (h : step E s (.send d p (.mac m) proto) = .ok s') (x : DevId) :
    x ∈ receivers (newLog s s') ↔ x ∈ audience s c (s.dev d).chanSlot (.mac m) ∧ Reachable E s c d x := by
  rw [send_receivers hi hw hc hidle hup hcap h]
  unfold hits Reachable
  simp only [List.mem_map, List.mem_filterMap]
  constructor
  · rintro ⟨⟨y, z⟩, ⟨a, h1, h2⟩, rfl⟩
    obtain ⟨w, h3, h4⟩ := Option.map_eq_some_iff.mp h2
    injection h4 with h4 _
    subst h4
    exact ⟨h1, by rw [h3]; rfl⟩
  · rintro ⟨h1, h2⟩
    obtain ⟨w, hw⟩ := Option.isSome_iff_exists.mp h2
    exact ⟨(x, w), ⟨x, h1, by rw [hw]; rfl⟩, rfl⟩

/-- The state after changing the address of a device. -/
theorem setAddress_ok {E : Env} {s s' : Sys} {d : DevId} {m : Mac48} (h : step E s (.setAddress d (.mac m)) = .ok s') :
    s' = s.setDev d { s.dev d with addr := m } := by
  simp only [step] at h
  injection h with h
  exact h.symm

/-! ## C76 -/

/-- The intended property C76: a device that changes its address while it is attached, to one nobody else on the channel
has, can go on sending: its frames reach the devices they reached before. -/
def AddressChangeKeepsSending (E : Env) : Prop :=
  ∀ (s0 s s1 s2 s3 : Sys) (ops : List Op) (d : DevId) (c : ChanId) (m dest : Mac48) (p : Bytes) (proto : UInt16),
    Initial s0 → exec E s0 ops = .ok s → (s.dev d).chan = some c → d ∈ members c s.log →
    (∀ y ∈ slots c s.log, (s.dev y).addr ≠ m) → (∀ y, (s.dev y).addr = dest → y ≠ d) →
    step E s (.send d p (.mac dest) proto) = .ok s1 →
    step E s (.setAddress d (.mac m)) = .ok s2 → step E s2 (.send d p (.mac dest) proto) = .ok s3 →
    receivers (newLog s2 s3) = receivers (newLog s s1)

/-- **C76 is false of the code**: ground device 0 is attached to a ground/space channel with satellite 1, changes its
address, and reaches nobody. -/
theorem C76_address_change_keeps_sending_false : ¬ AddressChangeKeepsSending Demo.env := by
  intro hall
  have hpre : ∃ s, exec Demo.env Demo.sys [.attach 0 0, .attach 1 0] = .ok s ∧
      (decide ((s.dev 0).chan = some 0 ∧ 0 ∈ members 0 s.log ∧ slots 0 s.log = [0, 1] ∧ (s.dev 0).addr = Demo.mac 1 ∧
        (s.dev 1).addr = Demo.mac 2) &&
        Demo.check Demo.env s [.send 0 [7] (.mac (Demo.mac 2)) 5] (fun u => receivers (newLog s u) == [1]) &&
        Demo.check Demo.env s [.setAddress 0 (.mac (Demo.mac 77))] (fun w =>
          Demo.check Demo.env w [.send 0 [7] (.mac (Demo.mac 2)) 5] (fun u => receivers (newLog w u) == []))) = true :=
    Demo.exists_of_check (by decide +kernel)
  obtain ⟨s, hs, ht⟩ := hpre
  simp only [Bool.and_eq_true, decide_eq_true_eq] at ht
  obtain ⟨⟨⟨h1, h2, h3, h4, h5⟩, h6⟩, h7⟩ := ht
  obtain ⟨s1, k1, k2⟩ := Demo.exists_of_check h6
  obtain ⟨s2, k3, k4⟩ := Demo.exists_of_check h7
  obtain ⟨s3, k5, k6⟩ := Demo.exists_of_check k4
  have one : ∀ {u v : Sys} {op : Op}, exec Demo.env u [op] = .ok v → step Demo.env u op = .ok v := by
    intro u v op h
    simp only [exec] at h
    rw [Outcome.bind_eq_ok] at h
    obtain ⟨w, h, h'⟩ := h
    injection h' with h'
    rw [h, h']
  have hu : ∀ y, (s.dev y).addr = Demo.mac 2 → y ≠ 0 := by
    rintro y hy rfl
    rw [h4] at hy
    exact absurd hy (by decide)
  have hn : ∀ y ∈ slots 0 s.log, (s.dev y).addr ≠ Demo.mac 77 := by
    intro y hy
    rw [h3] at hy
    simp only [List.mem_cons, List.not_mem_nil, or_false] at hy
    rcases hy with rfl | rfl
    · rw [h4]; decide
    · rw [h5]; decide
  have := hall Demo.sys s s1 s2 s3 _ 0 0 (Demo.mac 77) (Demo.mac 2) [7] 5 Demo.sys_initial hs h1 h2 hn hu (one k1) (one k3)
    (one k5)
  rw [eq_of_beq k2, eq_of_beq k6] at this
  cases this

/-- **C76, what happens on a ground/space channel** that was used orderly until then, when an attached device changes its
address to one that nobody on the channel has: a frame sent by the device is accepted, transmitted, reaches nobody, and
is reported as dropped. -/
theorem C76_renamed_sender_is_cut_off {E : Env} {s0 s s1 s2 : Sys} {ops : List Op} (h0 : Initial s0)
    (ho : OrderlyRun E s0 ops) (h : exec E s0 ops = .ok s) {d : DevId} {c : ChanId} {m dest : Mac48} {p : Bytes}
    {proto : UInt16} (hk : (s.chan c).kind = .leo) (hc : (s.dev d).chan = some c)
    (hm : ∀ y ∈ members c s.log, (s.dev y).addr ≠ m) (hidle : (s.dev d).busy = false) (hup : (s.dev d).linkUp = true)
    (hcap : 0 < (s.dev d).cap) (h1 : step E s (.setAddress d (.mac m)) = .ok s1)
    (h2 : step E s1 (.send d p (.mac dest) proto) = .ok s2) :
    receivers (newLog s1 s2) = [] ∧ ∃ f, (s.now, Ev.phyTxDrop d f) ∈ newLog s1 s2 ∧
      (s.now, Ev.sendRet d p (.mac dest) proto true f) ∈ newLog s1 s2 := by
  have hr := reached_exec h0 ho h
  have hx := exec_snoc h h1
  have hi := inv_exec (inv_initial h0) hx
  have hw := wired_exec (wired_initial h0) hx
  have hlink := hr.wired d c hc
  have hs1 := setAddress_ok h1
  have hg : m ∉ (s.chan c).gnd.map Prod.fst := by
    intro hmem
    obtain ⟨⟨a, y⟩, hy, rfl⟩ := List.mem_map.mp hmem
    obtain ⟨k1, _, k2⟩ := ((hr.index c).gnd hk a y).mp hy
    exact hm y k1 k2.symm
  have hs : m ∉ (s.chan c).sat.map Prod.fst := by
    intro hmem
    obtain ⟨⟨a, y⟩, hy, rfl⟩ := List.mem_map.mp hmem
    obtain ⟨k1, _, k2⟩ := ((hr.index c).sat hk a y).mp hy
    exact hm y k1 k2.symm
  have haud : ∀ dest, audience s1 c (s.dev d).chanSlot dest = [] := by
    intro dest
    rw [hs1]
    unfold audience
    simp [Sys.setDev, hlink, hk, hg, hs]
  have e1 : (s1.dev d).chan = some c := by rw [hs1]; simpa [Sys.setDev] using hc
  have e2 : (s1.dev d).busy = false := by rw [hs1]; simpa [Sys.setDev] using hidle
  have e3 : (s1.dev d).linkUp = true := by rw [hs1]; simpa [Sys.setDev] using hup
  have e4 : (s1.dev d).cap = (s.dev d).cap := by rw [hs1]; simp [Sys.setDev]
  have e5 : (s1.dev d).chanSlot = (s.dev d).chanSlot := by rw [hs1]; simp [Sys.setDev]
  have e6 : s1.now = s.now := by rw [hs1]; rfl
  have e7 : (s1.chan c).kind = .leo := by rw [hs1]; exact hk
  constructor
  · rw [List.eq_nil_iff_forall_not_mem]
    intro x hx
    rw [mem_send_receivers hi hw e1 e2 e3 (by rw [e4]; exact hcap) h2, e5, haud] at hx
    cases hx.1
  · have h2' : send E s1 d p (.mac dest) proto = .ok s2 := h2
    have hq := ((hi.dev d).ready e2).2.1
    rcases send_ok h2' with ⟨hl, _⟩ | ⟨_, _, m', hm', f, hf, ⟨hl, _⟩ | ⟨_, hb, _⟩ | ⟨_, _, g, rest, s3, hgq, hts, rfl⟩⟩
    · rw [e3] at hl; cases hl
    · rw [hq] at hl; simp at hl; omega
    · rw [e2] at hb; cases hb
    · rw [hq] at hgq
      simp only [List.nil_append, List.cons.injEq] at hgq
      obtain ⟨rfl, rfl⟩ := hgq
      obtain ⟨_, c', src, rs, b, hchan, _, _, rfl, hrs, hb, _⟩ := transmitStart_aud hts
      have hcc : c' = c := by
        have : (s1.dev d).chan = some c' := by simpa using hchan
        rw [e1] at this; injection this with this; exact this.symm
      subst hcc
      have hrs' : rs = [] := by
        rw [hrs]
        have hz : ∀ {g : DevId → Option Recv} {l : List DevId}, l = [] → l.filterMap g = [] := by rintro g l rfl; rfl
        refine hz ?_
        refine (audience_congr (s := s1) (by rfl) (by intro x; by_cases hx : x = d <;> simp [hx]) _ _ _).trans ?_
        simp only [if_true]
        rw [e5, haud]
      have hbf : b = false := by
        cases b with
        | false => rfl
        | true =>
          rcases hb.mp rfl with hb | ⟨hb, _⟩
          · exact absurd hrs' hb
          · have : (s1.chan c').kind = .isl := hb
            rw [e7] at this; cases this
      refine ⟨f, ?_, ?_⟩
      · simp [newLog, txState, e6, hbf]
      · simp [newLog, txState, e6]

/-- **C76, the other direction**: for everyone else on the channel nothing changes.  In particular the device with the
changed address still gets the frames of the other side. -/
theorem C76_renamed_receiver_is_still_served {E : Env} {s0 s s1 s2 s3 : Sys} {ops : List Op} (h0 : Initial s0)
    (h : exec E s0 ops = .ok s) {d x : DevId} {c : ChanId} {m dest : Mac48} {p : Bytes} {proto : UInt16}
    (hk : (s.chan c).kind = .leo) (hxd : x ≠ d) (hc : (s.dev x).chan = some c) (hidle : (s.dev x).busy = false)
    (hup : (s.dev x).linkUp = true) (hcap : 0 < (s.dev x).cap) (h1 : step E s (.setAddress d (.mac m)) = .ok s1)
    (h2 : step E s1 (.send x p (.mac dest) proto) = .ok s2) (h3 : step E s (.send x p (.mac dest) proto) = .ok s3) :
    ∀ y, y ∈ receivers (newLog s1 s2) ↔ y ∈ receivers (newLog s s3) := by
  intro y
  have hx := exec_snoc h h1
  have hi := inv_exec (inv_initial h0) hx
  have hw := wired_exec (wired_initial h0) hx
  have hi0 := inv_exec (inv_initial h0) h
  have hw0 := wired_exec (wired_initial h0) h
  have hs1 := setAddress_ok h1
  have hdx : s1.dev x = s.dev x := by rw [hs1]; simp [Sys.setDev, hxd]
  have hch : s1.chan = s.chan := by rw [hs1]; rfl
  have hlink := hw0 x c hc
  rw [mem_send_receivers hi hw (by rw [hdx]; exact hc) (by rw [hdx]; exact hidle) (by rw [hdx]; exact hup)
      (by rw [hdx]; exact hcap) h2, mem_send_receivers hi0 hw0 hc hidle hup hcap h3]
  have ha : audience s1 c (s1.dev x).chanSlot (.mac dest) = audience s c (s.dev x).chanSlot (.mac dest) := by
    rw [hdx]
    unfold audience
    simp only [hch, hlink, hk, hdx]
  have hn : ∀ z, (s1.dev z).node = (s.dev z).node ∧ (s1.dev z).txPower = (s.dev z).txPower := by
    intro z; rw [hs1]; by_cases hz : z = d <;> simp [Sys.setDev, hz]
  have hr : Reachable E s1 c x y ↔ Reachable E s c x y := by
    unfold Reachable reachDev
    rw [(hn x).1, (hn y).1, (hn x).2, show s1.now = s.now by rw [hs1]; rfl]
  rw [ha, hr]

/-- **C76, and it can no longer be removed**: after the change of the address `Detach` leaves the device in the index, and
it is still handed the frames of the other side. -/
theorem C76_renamed_device_cannot_be_detached {E : Env} {s0 s s1 s2 s3 : Sys} {ops : List Op} (h0 : Initial s0)
    (ho : OrderlyRun E s0 ops) (h : exec E s0 ops = .ok s) {d x : DevId} {c : ChanId} {slot : Nat} {m dest : Mac48} {p : Bytes}
    {proto : UInt16} (hk : (s.chan c).kind = .leo) (hd : (slots c s.log)[slot]? = some d) (hdm : d ∈ members c s.log)
    (hm : ∀ y ∈ members c s.log, (s.dev y).addr ≠ m) (hxm : x ∈ members c s.log) (hside : (s.dev x).side ≠ (s.dev d).side)
    (hc : (s.dev x).chan = some c) (hidle : (s.dev x).busy = false) (hup : (s.dev x).linkUp = true)
    (hcap : 0 < (s.dev x).cap) (h1 : step E s (.setAddress d (.mac m)) = .ok s1)
    (h2 : step E s1 (.detach c slot) = .ok s2) (h3 : step E s2 (.send x p (.mac dest) proto) = .ok s3) :
    d ∉ members c s2.log ∧ (s2.dev d).linkUp = false ∧ (d ∈ receivers (newLog s2 s3) ↔ Reachable E s c x d) := by
  have hr := reached_exec h0 ho h
  have hx1 := exec_snoc h h1
  have hx2 := exec_snoc hx1 h2
  have hi := inv_exec (inv_initial h0) hx2
  have hw := wired_exec (wired_initial h0) hx2
  have hs1 := setAddress_ok h1
  have hxd : x ≠ d := by rintro rfl; exact hside rfl
  have hch : s1.chan = s.chan := by rw [hs1]; rfl
  have hlog : s1.log = s.log := by rw [hs1]; rfl
  have hlink : (s1.chan c).link[slot]? = some d := by rw [hch, (hr.index c).link]; exact hd
  obtain ⟨g, t, r, l, hgt, hl, hlog2, hch2, hadr2, hdown, _⟩ := detach_view h2
  have hG : ∀ a y, (a, y) ∈ g ↔ (a, y) ∈ (s.chan c).gnd := by
    intro a y
    rcases hgt with ⟨hk', _⟩ | ⟨_, d', hd', rfl, _⟩
    · rw [hch, hk] at hk'; cases hk'
    · rw [hlink] at hd'; injection hd' with hd'; subst hd'
      rw [mem_mapErase, hch, hs1]
      simp only [Sys.setDev, if_true]
      constructor
      · exact fun h => h.1
      · intro h
        refine ⟨h, ?_⟩
        rintro rfl
        obtain ⟨k1, _, k2⟩ := ((hr.index c).gnd hk _ y).mp h
        exact hm y k1 k2.symm
  have hS : ∀ a y, (a, y) ∈ t ↔ (a, y) ∈ (s.chan c).sat := by
    intro a y
    rcases hgt with ⟨hk', _⟩ | ⟨_, d', hd', _, rfl⟩
    · rw [hch, hk] at hk'; cases hk'
    · rw [hlink] at hd'; injection hd' with hd'; subst hd'
      rw [mem_mapErase, hch, hs1]
      simp only [Sys.setDev, if_true]
      constructor
      · exact fun h => h.1
      · intro h
        refine ⟨h, ?_⟩
        rintro rfl
        obtain ⟨k1, _, k2⟩ := ((hr.index c).sat hk _ y).mp h
        exact hm y k1 k2.symm
  have hnm : d ∉ members c s2.log := by
    unfold members
    rw [hlog2, hlog, roster_detach hl, if_pos rfl]
    simp only [hd]
    simp
  refine ⟨hnm, hdown d hlink, ?_⟩
  obtain ⟨g', t', _, hcase⟩ := detach_ok h2
  have hdevx : s2.dev x = s.dev x := by
    rcases hcase with ⟨d', hd', _, rfl⟩ | ⟨_, rfl⟩
    · rw [hlink] at hd'; injection hd' with hd'; subst hd'
      simp only [if_neg hxd]
      rw [hs1]; simp [Sys.setDev, hxd]
    · rw [hs1]; simp [Sys.setDev, hxd]
  have hnode : (s2.dev d).node = (s.dev d).node ∧ s2.now = s.now := by
    rcases hcase with ⟨d', hd', _, rfl⟩ | ⟨_, rfl⟩
    · rw [hlink] at hd'; injection hd' with hd'; subst hd'
      simp only [if_true]
      rw [hs1]; simp [Sys.setDev]
    · rw [hs1]; simp [Sys.setDev]
  rw [mem_send_receivers hi hw (by rw [hdevx]; exact hc) (by rw [hdevx]; exact hidle) (by rw [hdevx]; exact hup)
      (by rw [hdevx]; exact hcap) h3, hdevx]
  have hreach : Reachable E s2 c x d ↔ Reachable E s c x d := by
    unfold Reachable reachDev
    rw [hdevx, hnode.1, hnode.2]
  rw [hreach]
  have hin : d ∈ audience s2 c (s.dev x).chanSlot (.mac dest) := by
    have hlx : (s2.chan c).link[(s.dev x).chanSlot]? = some x := by
      have := hw x c (by rw [hdevx]; exact hc)
      rw [hdevx] at this; exact this
    unfold audience
    simp only [hlx]
    have hk2 : (s2.chan c).kind = .leo := by rw [hch2]; simp only [if_true]; rw [hch]; exact hk
    have hg2 : (s2.chan c).gnd = g := by rw [hch2]; simp
    have ht2 : (s2.chan c).sat = t := by rw [hch2]; simp
    simp only [hk2, hg2, ht2, hdevx]
    cases hxs : (s.dev x).side with
    | gnd =>
      have hds : (s.dev d).side = .sat := by
        cases hq : (s.dev d).side
        · exact absurd (hxs.trans hq.symm) hside
        · rfl
      rw [if_pos (List.mem_map.mpr ⟨(_, x), (hG _ _).mpr (((hr.index c).gnd hk _ x).mpr ⟨hxm, hxs, rfl⟩), rfl⟩)]
      exact List.mem_map.mpr ⟨(_, d), (hS _ _).mpr (((hr.index c).sat hk _ d).mpr ⟨hdm, hds, rfl⟩), rfl⟩
    | sat =>
      have hds : (s.dev d).side = .gnd := by
        cases hq : (s.dev d).side
        · rfl
        · exact absurd (hxs.trans hq.symm) hside
      have hng : (s.dev x).addr ∉ g.map Prod.fst := by
        intro hmem
        obtain ⟨⟨a, y⟩, hy, hya⟩ := List.mem_map.mp hmem
        obtain ⟨k1, k2, k3⟩ := ((hr.index c).gnd hk _ y).mp ((hG _ _).mp hy)
        have := (hr.index c).inj x ((hr.index c).sub x hxm) y ((hr.index c).sub y k1) (by rw [← k3, ← hya])
        subst this
        rw [hxs] at k2; cases k2
      rw [if_neg hng,
        if_pos (List.mem_map.mpr ⟨(_, x), (hS _ _).mpr (((hr.index c).sat hk _ x).mpr ⟨hxm, hxs, rfl⟩), rfl⟩)]
      exact List.mem_map.mpr ⟨(_, d), (hG _ _).mpr (((hr.index c).gnd hk _ d).mpr ⟨hdm, hds, rfl⟩), rfl⟩
  exact ⟨fun h => h.2, fun h => ⟨hin, h⟩⟩

/-- Ground 0 and satellite 1; satellite 1 changes its address: its frames get lost, those of 0 still reach it, also after
it was detached. -/
example :
    Demo.check Demo.env Demo.sys
      [.attach 0 0, .attach 1 0, .setAddress 1 (.mac (Demo.mac 77)), .send 1 [7] (.mac (Demo.mac 1)) 5]
      (fun s => receivers s.log == [] && (s.log.any fun e => match e.2 with | .phyTxDrop 1 _ => true | _ => false)) = true ∧
    Demo.check Demo.env Demo.sys
      [.attach 0 0, .attach 1 0, .setAddress 1 (.mac (Demo.mac 77)), .detach 0 1, .send 0 [7] (.mac (Demo.mac 77)) 5]
      (fun s => receivers s.log == [1] && members 0 s.log == [0]) = true := by decide +kernel

/-- **C76 holds on inter-satellite channels**: the new address, which no device ever attached to the channel had, is in
force at once.  A frame for it reaches the device and nobody else, iff the device is reachable; a frame for the old one,
unless somebody else has it too, reaches nobody; and the device itself reaches with every unicast whom it reached before. -/
theorem C76_address_change_on_isl_partial {E : Env} {s0 s s1 s2 : Sys} {ops : List Op} (h0 : Initial s0)
    (h : exec E s0 ops = .ok s) {d x : DevId} {c : ChanId} {m dest : Mac48} {p : Bytes} {proto : UInt16}
    (hk : (s.chan c).kind = .isl) (hd : d ∈ (s.chan c).link) (hm : ∀ y ∈ (s.chan c).link, (s.dev y).addr ≠ m)
    (hc : (s.dev x).chan = some c) (hidle : (s.dev x).busy = false) (hup : (s.dev x).linkUp = true)
    (hcap : 0 < (s.dev x).cap) (h1 : step E s (.setAddress d (.mac m)) = .ok s1)
    (h2 : step E s1 (.send x p (.mac dest) proto) = .ok s2) :
    (dest = m → ∀ y, y ∈ receivers (newLog s1 s2) ↔ y = d ∧ Reachable E s c x d) ∧
    (dest = (s.dev d).addr → dest ≠ Mac48.broadcast → (∀ y ∈ (s.chan c).link, (s.dev y).addr = dest → y = d) →
      receivers (newLog s1 s2) = []) ∧
    (dest ≠ m → dest ≠ (s.dev d).addr → ∀ s3, step E s (.send x p (.mac dest) proto) = .ok s3 →
      ∀ y, y ∈ receivers (newLog s1 s2) ↔ y ∈ receivers (newLog s s3)) := by
  have hx := exec_snoc h h1
  have hi := inv_exec (inv_initial h0) hx
  have hw := wired_exec (wired_initial h0) hx
  have hi0 := inv_exec (inv_initial h0) h
  have hw0 := wired_exec (wired_initial h0) h
  have hs1 := setAddress_ok h1
  have hch : s1.chan = s.chan := by rw [hs1]; rfl
  have same : ∀ z, (s1.dev z).node = (s.dev z).node ∧ (s1.dev z).txPower = (s.dev z).txPower ∧
      (s1.dev z).chan = (s.dev z).chan ∧ (s1.dev z).busy = (s.dev z).busy ∧ (s1.dev z).linkUp = (s.dev z).linkUp ∧
      (s1.dev z).cap = (s.dev z).cap ∧ (s1.dev z).chanSlot = (s.dev z).chanSlot := by
    intro z; rw [hs1]; by_cases hz : z = d <;> simp [Sys.setDev, hz]
  have hadr : ∀ z, (s1.dev z).addr = if z = d then m else (s.dev z).addr := by
    intro z; rw [hs1]; by_cases hz : z = d <;> simp [Sys.setDev, hz]
  obtain ⟨n1, n2, n3, n4, n5, n6, n7⟩ := same x
  have hlink := hw0 x c hc
  have hreach : ∀ y, Reachable E s1 c x y ↔ Reachable E s c x y := by
    intro y
    unfold Reachable reachDev
    rw [n1, n2, (same y).1, show s1.now = s.now by rw [hs1]; rfl]
  have hrecv : ∀ y, y ∈ receivers (newLog s1 s2) ↔
      y ∈ audience s1 c (s.dev x).chanSlot (.mac dest) ∧ Reachable E s c x y := by
    intro y
    rw [mem_send_receivers hi hw (by rw [n3]; exact hc) (by rw [n4]; exact hidle) (by rw [n5]; exact hup)
      (by rw [n6]; exact hcap) h2, n7, hreach]
  refine ⟨?_, ?_, ?_⟩
  · rintro rfl y
    have haud : audience s1 c (s.dev x).chanSlot (.mac dest) = [d] := by
      unfold audience
      simp only [hch, hlink, hk]
      have hf : (s.chan c).link.find? (fun z => decide (Addr.mac (s1.dev z).addr = Addr.mac dest)) = some d := by
        cases hq : (s.chan c).link.find? (fun z => decide (Addr.mac (s1.dev z).addr = Addr.mac dest)) with
        | none =>
          rw [List.find?_eq_none] at hq
          exact absurd (hq d hd) (by simp [hadr])
        | some z =>
          have hz1 := List.find?_some hq
          have hz2 := List.mem_of_find?_eq_some hq
          simp only [decide_eq_true_eq, Addr.mac.injEq, hadr] at hz1
          split at hz1
          · rename_i hzd; rw [hzd]
          · exact absurd hz1 (hm z hz2)
      rw [hf]
    rw [hrecv, haud, List.mem_singleton]
    exact ⟨fun ⟨h1, h2⟩ => ⟨h1, h1 ▸ h2⟩, fun ⟨h1, h2⟩ => ⟨h1, h1 ▸ h2⟩⟩
  · intro hde hnb hone
    rw [List.eq_nil_iff_forall_not_mem]
    intro y hy
    rw [hrecv] at hy
    have haud : audience s1 c (s.dev x).chanSlot (.mac dest) = [] := by
      unfold audience
      simp only [hch, hlink, hk]
      have hf : (s.chan c).link.find? (fun z => decide (Addr.mac (s1.dev z).addr = Addr.mac dest)) = none := by
        rw [List.find?_eq_none]
        intro z hz
        simp only [decide_eq_true_eq, Addr.mac.injEq, hadr]
        split
        · intro he; exact hm d hd (by rw [← hde, he])
        · rename_i hzd; intro he; exact hzd (hone z hz he)
      rw [hf]
      simp [hnb]
    rw [haud] at hy
    cases hy.1
  · intro h3 h4 s3 h5 y
    rw [hrecv, mem_send_receivers hi0 hw0 hc hidle hup hcap h5]
    have haud : audience s1 c (s.dev x).chanSlot (.mac dest) = audience s c (s.dev x).chanSlot (.mac dest) := by
      unfold audience
      simp only [hch, hlink, hk]
      have hf : (fun z => decide (Addr.mac (s1.dev z).addr = Addr.mac dest)) =
          (fun z => decide (Addr.mac (s.dev z).addr = Addr.mac dest)) := by
        funext z
        rw [hadr]
        split
        · rename_i hz; subst hz
          rw [Bool.eq_iff_iff]
          simp only [decide_eq_true_eq, Addr.mac.injEq]
          exact ⟨fun h => absurd h.symm h3, fun h => absurd h.symm h4⟩
        · rfl
      rw [hf]
    rw [haud]

example : Demo.check Demo.env Demo.sys
    [.attach 1 1, .attach 3 1, .setAddress 3 (.mac (Demo.mac 77)), .send 1 [7] (.mac (Demo.mac 77)) 5, .run, .run,
     .send 1 [7] (.mac (Demo.mac 4)) 5]
    (fun s => receivers s.log == [3] && (s.dev 1).busy) = true := by decide +kernel

/-! ## C77 -/

/-- No entry of a channel's index is the device. -/
def NotIndexed (c : ChanId) (d : DevId) (s : Sys) : Prop :=
  (∀ a, (a, d) ∉ (s.chan c).gnd) ∧ ∀ a, (a, d) ∉ (s.chan c).sat

theorem mem_mapInsert_of_ne {a b : Mac48} {d y : DevId} {m : List (Mac48 × DevId)} (hy : y ≠ d)
    (h : (b, y) ∈ mapInsert a d m) : (b, y) ∈ m := by
  induction m with
  | nil => simp [mapInsert, hy] at h
  | cons x m ih =>
    obtain ⟨e, z⟩ := x
    simp only [mapInsert] at h
    split at h
    · rcases List.mem_cons.mp h with h | h
      · injection h with _ h; exact absurd h hy
      · exact List.mem_cons_of_mem _ h
    · split at h
      · rcases List.mem_cons.mp h with h | h
        · injection h with _ h; exact absurd h hy
        · exact h
      · rcases List.mem_cons.mp h with h | h
        · rw [h]; simp
        · exact List.mem_cons_of_mem _ (ih h)

theorem notIndexed_step {E : Env} {s s' : Sys} {op : Op} {c : ChanId} {d : DevId} (hop : op ≠ .attach d c)
    (h : step E s op = .ok s') (hn : NotIndexed c d s) : NotIndexed c d s' := by
  rcases chan_step h with h1 | ⟨y, c', rfl⟩ | ⟨c', slot, rfl⟩
  · unfold NotIndexed; rw [h1]; exact hn
  · obtain ⟨g, t, hgt, rfl⟩ := attach_ok h
    by_cases hc : c = c'
    · subst hc
      have hyd : d ≠ y := by rintro rfl; exact hop rfl
      unfold NotIndexed
      simp only [if_true]
      rcases hgt with ⟨_, rfl, rfl⟩ | ⟨_, _, ⟨_, rfl, rfl⟩ | ⟨_, rfl, rfl⟩⟩
      · exact hn
      · exact ⟨fun a ha => hn.1 a (mem_mapInsert_of_ne hyd ha), hn.2⟩
      · exact ⟨hn.1, fun a ha => hn.2 a (mem_mapInsert_of_ne hyd ha)⟩
    · unfold NotIndexed; simp only [if_neg hc]; exact hn
  · obtain ⟨g, t, r, l, hgt, _, _, hch, _⟩ := detach_view h
    unfold NotIndexed
    rw [hch]
    by_cases hc : c = c'
    · subst hc
      simp only [if_true]
      rcases hgt with ⟨_, rfl, rfl⟩ | ⟨_, _, _, rfl, rfl⟩
      · exact hn
      · exact ⟨fun a ha => hn.1 a (mem_mapErase.mp ha).1, fun a ha => hn.2 a (mem_mapErase.mp ha).1⟩
    · simp only [if_neg hc]; exact hn

/-- A device that is in neither index of a ground/space channel is handed nothing by it until it attaches again. -/
theorem notIndexed_exec {E : Env} {c : ChanId} {d : DevId} : ∀ {ops : List Op} {s s' : Sys}, Inv s → Wired s →
    (s.chan c).kind = .leo → NotIndexed c d s → Op.attach d c ∉ ops → exec E s ops = .ok s' →
    ∃ l, s'.log = s.log ++ l ∧ ∀ t f src tx del, (t, Ev.txrx c f src d tx del) ∉ l
  | [], s, s', _, _, _, _, _, h => by
    injection h with h; subst h
    exact ⟨[], by simp, by simp⟩
  | op :: ops, s, s', hi, hw, hk, hn, hops, h => by
    simp only [exec] at h
    rw [Outcome.bind_eq_ok] at h
    obtain ⟨u, h1, h2⟩ := h
    obtain ⟨l, hl1, hl2⟩ := notIndexed_exec (inv_step hi h1) (wired_step hw h1) (by rw [kind_step h1]; exact hk)
      (notIndexed_step (by rintro rfl; exact hops (by simp)) h1 hn) (fun h => hops (by simp [h])) h2
    have hpre := log_prefix_step hi hw h1
    refine ⟨newLog s u ++ l, by rw [hl1, hpre, List.append_assoc], ?_⟩
    intro t f src tx del hm
    rcases List.mem_append.mp hm with hm | hm
    · obtain ⟨dest, pw, _, g2, g3, -⟩ := txrx_step hi hw h1 hm
      unfold audience at g3
      simp only [g2, hk] at g3
      split at g3
      · obtain ⟨⟨a, y⟩, k1, rfl⟩ := List.mem_map.mp g3
        exact hn.2 a k1
      · split at g3
        · obtain ⟨⟨a, y⟩, k1, rfl⟩ := List.mem_map.mp g3
          exact hn.1 a k1
        · cases g3
    · exact hl2 t f src tx del hm

/-- The intended property C77: attaching a device to a channel does not take frames away from the others. -/
def AttachKeepsOthers (E : Env) : Prop :=
  ∀ (s0 s s1 s2 s3 : Sys) (ops : List Op) (d x y : DevId) (c : ChanId) (dest : Mac48) (p : Bytes) (proto : UInt16),
    Initial s0 → exec E s0 ops = .ok s → x ≠ d → y ≠ d → (s.dev x).chan = some c →
    step E s (.send x p (.mac dest) proto) = .ok s1 →
    step E s (.attach d c) = .ok s2 → step E s2 (.send x p (.mac dest) proto) = .ok s3 →
    y ∈ receivers (newLog s s1) → y ∈ receivers (newLog s2 s3)

/-- **C77 is false of the code**: satellite 3 gets the address of satellite 1 and is attached; ground 0 no longer reaches
satellite 1. -/
theorem C77_attach_keeps_others_false : ¬ AttachKeepsOthers Demo.env := by
  intro hall
  have hpre : ∃ s, exec Demo.env Demo.sys [.attach 0 0, .attach 1 0, .setAddress 3 (.mac (Demo.mac 2))] = .ok s ∧
      (decide ((s.dev 0).chan = some 0) &&
        Demo.check Demo.env s [.send 0 [7] (.mac (Demo.mac 2)) 5] (fun u => receivers (newLog s u) == [1]) &&
        Demo.check Demo.env s [.attach 3 0] (fun w =>
          Demo.check Demo.env w [.send 0 [7] (.mac (Demo.mac 2)) 5] (fun u => receivers (newLog w u) == [3]))) = true :=
    Demo.exists_of_check (by decide +kernel)
  obtain ⟨s, hs, ht⟩ := hpre
  simp only [Bool.and_eq_true, decide_eq_true_eq] at ht
  obtain ⟨⟨h1, h6⟩, h7⟩ := ht
  obtain ⟨s1, k1, k2⟩ := Demo.exists_of_check h6
  obtain ⟨s2, k3, k4⟩ := Demo.exists_of_check h7
  obtain ⟨s3, k5, k6⟩ := Demo.exists_of_check k4
  have one : ∀ {u v : Sys} {op : Op}, exec Demo.env u [op] = .ok v → step Demo.env u op = .ok v := by
    intro u v op h
    simp only [exec] at h
    rw [Outcome.bind_eq_ok] at h
    obtain ⟨w, h, h'⟩ := h
    injection h' with h'
    rw [h, h']
  have := hall Demo.sys s s1 s2 s3 _ 3 0 1 0 (Demo.mac 2) [7] 5 Demo.sys_initial hs (by decide) (by decide) h1 (one k1)
    (one k3) (one k5)
  rw [eq_of_beq k2, eq_of_beq k6] at this
  exact absurd (this (by simp)) (by simp)

/-- **C77, what happens**: when a device is attached to a ground/space channel, used orderly until then, on which a device
of the same side with the same address is attached, then the latter is handed nothing any more until it attaches again
itself, whatever happens; its link stays up. -/
theorem C77_same_address_displaces {E : Env} {s0 s s1 s' : Sys} {ops ops2 : List Op} (h0 : Initial s0)
    (ho : OrderlyRun E s0 ops) (h : exec E s0 ops = .ok s) {d d1 : DevId} {c : ChanId} (hk : (s.chan c).kind = .leo)
    (hne : d ≠ d1) (hd1 : d1 ∈ members c s.log) (hadr : (s.dev d).addr = (s.dev d1).addr)
    (hside : (s.dev d).side = (s.dev d1).side) (h1 : step E s (.attach d c) = .ok s1)
    (hops : Op.attach d1 c ∉ ops2) (h2 : exec E s1 ops2 = .ok s') :
    (s1.dev d1).linkUp = (s.dev d1).linkUp ∧ d1 ∈ members c s1.log ∧
      ∀ t f src tx del, (t, Ev.txrx c f src d1 tx del) ∉ newLog s1 s' := by
  have hr := reached_exec h0 ho h
  have hi1 := inv_step hr.inv h1
  have hw1 := wired_step hr.wired h1
  have hn : NotIndexed c d1 s1 := by
    obtain ⟨g, t, hgt, rfl⟩ := attach_ok h1
    unfold NotIndexed
    simp only [if_true]
    have kG : ∀ a, (a, d1) ∈ (s.chan c).gnd → a = (s.dev d).addr ∧ (s.dev d1).side = .gnd := fun a ha => by
      obtain ⟨_, k2, k3⟩ := ((hr.index c).gnd hk a d1).mp ha
      exact ⟨k3.trans hadr.symm, k2⟩
    have kS : ∀ a, (a, d1) ∈ (s.chan c).sat → a = (s.dev d).addr ∧ (s.dev d1).side = .sat := fun a ha => by
      obtain ⟨_, k2, k3⟩ := ((hr.index c).sat hk a d1).mp ha
      exact ⟨k3.trans hadr.symm, k2⟩
    rcases hgt with ⟨hk', _⟩ | ⟨_, _, ⟨hs, rfl, rfl⟩ | ⟨hs, rfl, rfl⟩⟩
    · rw [hk] at hk'; cases hk'
    · constructor
      · intro a ha
        rcases (mem_mapInsert (hr.index c).sortedG).mp ha with ⟨_, k⟩ | ⟨k, ha⟩
        · exact hne k.symm
        · exact k (kG a ha).1
      · intro a ha
        have := (kS a ha).2
        rw [← hside, hs] at this; cases this
    · constructor
      · intro a ha
        have := (kG a ha).2
        rw [← hside, hs] at this; cases this
      · intro a ha
        rcases (mem_mapInsert (hr.index c).sortedS).mp ha with ⟨_, k⟩ | ⟨k, ha⟩
        · exact hne k.symm
        · exact k (kS a ha).1
  obtain ⟨l, hl1, hl2⟩ := notIndexed_exec hi1 hw1 (by rw [kind_step h1]; exact hk) hn hops h2
  refine ⟨?_, ?_, ?_⟩
  · obtain ⟨g, t, _, rfl⟩ := attach_ok h1
    simp [hne.symm]
  · obtain ⟨g, t, _, rfl⟩ := attach_ok h1
    unfold members
    rw [roster_attach, if_pos rfl]
    simp only
    split
    · exact hd1
    · exact List.mem_append_left _ hd1
  · intro t f src tx del hm
    unfold newLog at hm
    rw [hl1, List.drop_left] at hm
    exact hl2 t f src tx del hm

/-- If the two are on different sides, neither can send any more: the assertion of the channel fails. -/
theorem C77_same_address_on_both_sides_faults {E : Env} {s0 s s1 : Sys} {ops : List Op} (h0 : Initial s0)
    (ho : OrderlyRun E s0 ops) (h : exec E s0 ops = .ok s) {d d1 x : DevId} {c : ChanId} (hk : (s.chan c).kind = .leo)
    (hd1 : d1 ∈ members c s.log) (hadr : (s.dev d).addr = (s.dev d1).addr)
    (hside : (s.dev d).side ≠ (s.dev d1).side) (h1 : step E s (.attach d c) = .ok s1) (hx : x = d ∨ x = d1)
    (hc : (s1.dev x).chan = some c) (hidle : (s1.dev x).busy = false) (hup : (s1.dev x).linkUp = true)
    (hcap : 0 < (s1.dev x).cap) (hq : (s1.dev x).hasQueue = true) (p : Bytes) (dest : Mac48) (proto : UInt16) :
    step E s1 (.send x p (.mac dest) proto) = .fail .bothSides := by
  have hr := reached_exec h0 ho h
  have hi1 := inv_step hr.inv h1
  have hw1 := wired_step hr.wired h1
  have hlink := hw1 x c hc
  have hk1 : (s1.chan c).kind = .leo := by rw [kind_step h1]; exact hk
  have hadx : (s1.dev x).addr = (s.dev d).addr := by
    obtain ⟨g, t, _, rfl⟩ := attach_ok h1
    rcases hx with rfl | rfl
    · simp
    · by_cases hxd : x = d
      · subst hxd; simp
      · simp [hxd, hadr]
  have hboth : mapHas (s.dev d).addr (s1.chan c).gnd = true ∧ mapHas (s.dev d).addr (s1.chan c).sat = true := by
    rw [mapHas_iff, mapHas_iff, List.mem_map, List.mem_map]
    obtain ⟨g, t, hgt, rfl⟩ := attach_ok h1
    simp only [if_true]
    rcases hgt with ⟨hk', _⟩ | ⟨_, _, ⟨hs, rfl, rfl⟩ | ⟨hs, rfl, rfl⟩⟩
    · rw [hk] at hk'; cases hk'
    · refine ⟨⟨(_, d), (mem_mapInsert (hr.index c).sortedG).mpr (Or.inl ⟨rfl, rfl⟩), rfl⟩,
        ⟨(_, d1), ((hr.index c).sat hk _ d1).mpr ⟨hd1, ?_, hadr⟩, rfl⟩⟩
      cases hq : (s.dev d1).side
      · exact absurd (hs.trans hq.symm) hside
      · rfl
    · refine ⟨⟨(_, d1), ((hr.index c).gnd hk _ d1).mpr ⟨hd1, ?_, hadr⟩, rfl⟩,
        ⟨(_, d), (mem_mapInsert (hr.index c).sortedS).mpr (Or.inl ⟨rfl, rfl⟩), rfl⟩⟩
      cases hq : (s.dev d1).side
      · rfl
      · exact absurd (hs.trans hq.symm) hside
  have hqe := ((hi1.dev x).ready hidle).2.1
  simp only [step, send, hup, hq, hqe, hidle, hcap, Sys.emit, Sys.setDev, transmitStart, hc, chanTransmit, hk1,
    leoTransmit, Sys.schedule, hlink, hadx, hboth.1, hboth.2, Bool.not_true, Bool.not_false, if_true, if_false,
    List.length_nil, List.nil_append, Bool.and_self, Bool.false_eq_true]
  rfl

/-- The cases above occur: 3 has the address of 1; 2 has the address of 1, on the other side. -/
example :
    Demo.check Demo.env Demo.sys
      [.attach 0 0, .attach 1 0, .setAddress 3 (.mac (Demo.mac 2)), .attach 3 0, .send 0 [7] (.mac (Demo.mac 2)) 5, .run, .run]
      (fun s => receivers s.log == [3] && (s.dev 1).linkUp) = true ∧
    Demo.fault Demo.env Demo.sys
      [.attach 0 0, .attach 1 0, .setAddress 2 (.mac (Demo.mac 2)), .attach 2 0, .send 1 [7] (.mac (Demo.mac 2)) 5]
      = some .bothSides := by decide +kernel

/-- **C77 holds for orderly use**: a device that is attached with an address no device of the channel ever had takes no
frame away from anybody and gives none to anybody but itself. -/
theorem C77_attach_keeps_others_partial {E : Env} {s0 s s1 s2 s3 : Sys} {ops : List Op} (h0 : Initial s0)
    (ho : OrderlyRun E s0 ops) (h : exec E s0 ops = .ok s) {d x y : DevId} {c : ChanId} {dest : Mac48} {p : Bytes}
    {proto : UInt16} (hnew : ∀ z ∈ slots c s.log, (s.dev z).addr = (s.dev d).addr → z = d) (hxd : x ≠ d) (hyd : y ≠ d)
    (hdest : dest ≠ (s.dev d).addr) (hc : (s.dev x).chan = some c) (hidle : (s.dev x).busy = false)
    (hup : (s.dev x).linkUp = true) (hcap : 0 < (s.dev x).cap)
    (h1 : step E s (.send x p (.mac dest) proto) = .ok s1) (h2 : step E s (.attach d c) = .ok s2)
    (h3 : step E s2 (.send x p (.mac dest) proto) = .ok s3) :
    y ∈ receivers (newLog s2 s3) ↔ y ∈ receivers (newLog s s1) := by
  have hr := reached_exec h0 ho h
  have hi2 := inv_step hr.inv h2
  have hw2 := wired_step hr.wired h2
  have hix2 : IndexInv c s2 := indexInv_attach (hr.index c) hnew h2
  have hdx : ∀ z, z ≠ d → s2.dev z = s.dev z := by
    intro z hz
    obtain ⟨g, t, _, rfl⟩ := attach_ok h2
    simp [hz]
  have hadr : ∀ z, (s2.dev z).addr = (s.dev z).addr ∧ (s2.dev z).side = (s.dev z).side ∧
      (s2.dev z).node = (s.dev z).node := by
    intro z
    obtain ⟨g, t, _, rfl⟩ := attach_ok h2
    by_cases hz : z = d <;> simp [hz]
  have hmem : ∀ z, z ≠ d → (z ∈ members c s2.log ↔ z ∈ members c s.log) := by
    intro z hz
    obtain ⟨g, t, _, rfl⟩ := attach_ok h2
    unfold members
    rw [roster_attach, if_pos rfl]
    simp only
    split
    · rfl
    · simp [hz, members]
  have hlk : (s2.chan c).link = (s.chan c).link ++ [d] := by
    obtain ⟨g, t, _, rfl⟩ := attach_ok h2
    simp
  have hkk := kind_step h2 c
  have hnow : s2.now = s.now := by obtain ⟨g, t, _, rfl⟩ := attach_ok h2; rfl
  have hl := hr.wired x c hc
  have hl2 := hw2 x c (by rw [hdx x hxd]; exact hc)
  rw [hdx x hxd] at hl2
  rw [mem_send_receivers hi2 hw2 (by rw [hdx x hxd]; exact hc) (by rw [hdx x hxd]; exact hidle)
    (by rw [hdx x hxd]; exact hup) (by rw [hdx x hxd]; exact hcap) h3,
    mem_send_receivers hr.inv hr.wired hc hidle hup hcap h1, hdx x hxd]
  have hreach : Reachable E s2 c x y ↔ Reachable E s c x y := by
    unfold Reachable reachDev
    rw [hdx x hxd, hdx y hyd, hnow]
  rw [hreach]
  refine and_congr_left fun _ => ?_
  cases hk : (s.chan c).kind with
  | leo =>
    rw [(audience_leo hix2 (hkk.trans hk) hl2).1, (audience_leo (hr.index c) hk hl).1, hmem x hxd, hmem y hyd,
      (hadr x).2.1, (hadr y).2.1]
  | isl =>
    unfold audience
    have hfe : (fun z => decide (Addr.mac (s2.dev z).addr = Addr.mac dest)) =
        (fun z => decide (Addr.mac (s.dev z).addr = Addr.mac dest)) := by
      funext z; rw [(hadr z).1]
    rw [hlk] at hl2
    simp only [hlk, hl, hl2, hk, hkk.trans hk, hfe, List.find?_append]
    have hs : [d].find? (fun z => decide (Addr.mac (s.dev z).addr = Addr.mac dest)) = none := by
      simp [Ne.symm hdest]
    rw [hs, Option.or_none]
    cases (s.chan c).link.find? (fun z => decide (Addr.mac (s.dev z).addr = Addr.mac dest)) with
    | some z => rfl
    | none =>
      simp only
      split
      · rw [List.eraseIdx_append_of_lt_length (List.getElem?_eq_some_iff.mp hl).1]
        simp [hyd]
      · rfl

/-- Satellite 3 joins ground 0 and satellite 1. -/
example : Demo.check Demo.env Demo.sys
    [.attach 0 0, .attach 1 0, .send 0 [7] (.mac (Demo.mac 2)) 5, .attach 3 0, .run, .run, .send 0 [7] (.mac (Demo.mac 2)) 5]
    (fun s => receivers s.log == [1, 1, 3]) = true := by decide +kernel

end Verif
