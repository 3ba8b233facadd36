import Verif.Lemmas.HelperConf
import Verif.Lemmas.NeighbourCache
/-! # C57: installation -/

namespace Verif
open Spec

/-- C57 (ground/space channel): whatever was installed before and whatever was set (short of the device type itself),
`Install` gives every node of the two lists one new device, satellites first, ready for use at the channel slot that is its
position in the returned container, of the right type; the addresses are new and distinct; the channel holds exactly the
container and indexes each device on its side under its address; existing devices and channels are not touched. -/
theorem C57_leo_install {ss : List ChanSetting} {h : LeoChannelHelper} (hc : LeoChannelHelper.create.configure ss = .ok h)
    (hn : ∀ s ∈ ss, ¬ namesType s) (b : Build) (sats gnds : List NodeId)
    (hm : b.lastMac + (sats ++ gnds).length < 2 ^ 48) :
    ∃ b' l, h.install sats gnds b = .ok (b', l) ∧ l.length = (sats ++ gnds).length ∧ l.Nodup ∧
      (∀ d ∈ l, b.nextDev ≤ d) ∧
      (∀ (i : Nat) n d, (sats ++ gnds)[i]? = some n → l[i]? = some d → InstalledAt b' b.nextChan i d n ∧
        (b'.sys.dev d).leo = true ∧ (b'.sys.dev d).side = if i < sats.length then .sat else .gnd) ∧
      (∀ d ∈ l, ∀ e ∈ l, (b'.sys.dev d).addr = (b'.sys.dev e).addr → d = e) ∧
      (∀ d ∈ l, ∀ k, k ≤ b.lastMac → (b'.sys.dev d).addr ≠ Mac48.ofNat k) ∧
      b'.lastMac = b.lastMac + l.length ∧
      (b'.sys.chan b.nextChan).link = l ∧
      (∀ a d, (a, d) ∈ (b'.sys.chan b.nextChan).sat ↔ d ∈ l.take sats.length ∧ a = (b'.sys.dev d).addr) ∧
      (∀ a d, (a, d) ∈ (b'.sys.chan b.nextChan).gnd ↔ d ∈ l.drop sats.length ∧ a = (b'.sys.dev d).addr) ∧
      (∀ d : Nat, d < b.nextDev → b'.sys.dev d = b.sys.dev d) ∧
      (∀ c, c ≠ b.nextChan → b'.sys.chan c = b.sys.chan c) := by
  have hs := sided_configure sided_create hn hc
  have hsat : h.satDev.create.side = .sat := hs.sat.2.create
  have hgnd : h.gndDev.create.side = .gnd := hs.gnd.2.create
  obtain ⟨b', e, hi⟩ := leo_install_eq (b := b) (sats := sats) (gnds := gnds) hs.sat.1 hs.gnd.1 hm
  have hdev : ∀ i : Nat, i < (sats ++ gnds).length → ∃ n, (sats ++ gnds)[i]? = some n :=
    fun i h => ⟨(sats ++ gnds)[i], by simp⟩
  have haddr : ∀ i : Nat, i < (sats ++ gnds).length →
      (b'.sys.dev (b.nextDev + i)).addr = Mac48.ofNat (b.lastMac + i + 1) := by
    intro i h
    obtain ⟨n, hn⟩ := hdev i h
    rw [(hi.new i n hn).1]
    rfl
  refine ⟨b', _, e, List.length_range', List.nodup_range', ?_, ?_, ?_, ?_, ?_, hi.link, ?_, ?_, ?_, hi.otherChan⟩
  · intro d hd
    exact (List.mem_range'_1.mp hd).1
  · intro i n d h1 h2
    have hlt : i < (sats ++ gnds).length := (List.getElem?_eq_some_iff.mp h1).1
    have hd : d = b.nextDev + i := by
      rw [List.getElem?_range' hlt] at h2
      injection h2 with h2
      rw [← h2, Nat.one_mul]
    subst hd
    have hv := (hi.new i n h1).1
    have hf := create_fixed (if i < sats.length then h.satDev else h.gndDev)
    refine ⟨⟨?_, ?_, ?_, ?_, ?_, ?_, ?_, ?_⟩, ?_, ?_⟩
    · rw [hv]; rfl
    · rw [hv]; rfl
    · rw [hv]; rfl
    · rw [hv]; rfl
    · rw [hi.link]; exact h2
    · rw [hv]; exact ⟨hf.2.2.1, hf.2.2.2.1⟩
    · rw [hv]; exact ⟨rfl, rfl⟩
    · rw [hv]; rfl
    · rw [hv]
      refine hf.1.trans ?_
      split
      · exact hs.sat.1
      · exact hs.gnd.1
    · rw [hv]
      show (if i < sats.length then h.satDev else h.gndDev).create.side = _
      split
      · exact hsat
      · exact hgnd
  · intro d hd e' he' ha
    obtain ⟨i, hi', rfl⟩ := mem_range'_one hd
    obtain ⟨j, hj', rfl⟩ := mem_range'_one he'
    rw [haddr i hi', haddr j hj'] at ha
    have := Mac48.ofNat_inj (by omega) (by omega) ha
    have : i = j := by omega
    rw [this]
  · intro d hd k hk ha
    obtain ⟨i, hi', rfl⟩ := mem_range'_one hd
    rw [haddr i hi'] at ha
    have := Mac48.ofNat_inj (by omega) (by omega) ha
    omega
  · rw [hi.lastMac, List.length_range']
  · intro a d
    rw [(hi.index hsat hgnd).1, mem_newEntries, List.length_append, ← List.range'_append_1, List.take_left' (by simp)]
    rw [List.length_append] at haddr
    constructor
    · rintro ⟨i, h1, rfl, rfl⟩
      exact ⟨List.mem_range'_1.mpr ⟨by omega, by omega⟩, (haddr i (by omega)).symm⟩
    · rintro ⟨h1, rfl⟩
      obtain ⟨i, h2, rfl⟩ := mem_range'_one h1
      exact ⟨i, h2, haddr i (by omega), rfl⟩
  · intro a d
    rw [(hi.index hsat hgnd).2, mem_newEntries, List.length_append, ← List.range'_append_1, List.drop_left' (by simp)]
    rw [List.length_append] at haddr
    have e1 : ∀ i, b.lastMac + sats.length + i + 1 = b.lastMac + (sats.length + i) + 1 := fun i => by omega
    have e2 : ∀ i, b.nextDev + sats.length + i = b.nextDev + (sats.length + i) := fun i => by omega
    constructor
    · rintro ⟨i, h1, rfl, rfl⟩
      rw [e1]
      refine ⟨List.mem_range'_1.mpr ⟨by omega, by omega⟩, ?_⟩
      rw [e2]
      exact (haddr (sats.length + i) (by omega)).symm
    · rintro ⟨h1, rfl⟩
      obtain ⟨i, h2, rfl⟩ := mem_range'_one h1
      refine ⟨i, h2, ?_, rfl⟩
      rw [e1, e2]
      exact haddr (sats.length + i) (by omega)
  · intro d hd
    exact (hi.old d (Or.inl hd)).1

/-- The conditions are met by ordinary scripts: settings of all sorts, then two satellites and a station. -/
example (s : Sys) : (∃ h, LeoChannelHelper.create.configure
      [.constellation "StarlinkUser", .gndDevice (.mtu 1000), .satQueue { type := "ns3::DropTailQueue", n1 := ("MaxSize", 7) }]
      = .ok h) ∧
    (∀ s ∈ ([.constellation "StarlinkUser", .gndDevice (.mtu 1000),
      .satQueue { type := "ns3::DropTailQueue", n1 := ("MaxSize", 7) }] : List ChanSetting), ¬ namesType s) ∧
    (Build.start s).lastMac + ([1, 2] ++ [3] : List NodeId).length < 2 ^ 48 := by
  refine ⟨⟨_, rfl⟩, ?_, (show 0 + 3 < 2 ^ 48 by decide)⟩
  simp [namesType, DevAttr.key]

/-- C57 (inter-satellite channel): likewise, in list order, for any settings. -/
theorem C57_isl_install (h : IslHelper) (b : Build) (nodes : List NodeId) (hm : b.lastMac + nodes.length < 2 ^ 48) :
    ∃ b' l, h.install nodes b = .ok (b', l) ∧ l.length = nodes.length ∧ l.Nodup ∧ (∀ d ∈ l, b.nextDev ≤ d) ∧
      (∀ (i : Nat) n d, nodes[i]? = some n → l[i]? = some d → InstalledAt b' b.nextChan i d n) ∧
      (∀ d ∈ l, ∀ e ∈ l, (b'.sys.dev d).addr = (b'.sys.dev e).addr → d = e) ∧
      (∀ d ∈ l, ∀ k, k ≤ b.lastMac → (b'.sys.dev d).addr ≠ Mac48.ofNat k) ∧
      b'.lastMac = b.lastMac + l.length ∧
      (b'.sys.chan b.nextChan).link = l ∧ (b'.sys.chan b.nextChan).kind = .isl ∧
      (∀ d : Nat, d < b.nextDev → b'.sys.dev d = b.sys.dev d) ∧
      (∀ c, c ≠ b.nextChan → b'.sys.chan c = b.sys.chan c) := by
  obtain ⟨b', e, hi⟩ := isl_install_eq (h := h) (b := b) (nodes := nodes) hm
  have hf := create_fixed h.dev
  have haddr : ∀ i : Nat, i < nodes.length → (b'.sys.dev (b.nextDev + i)).addr = Mac48.ofNat (b.lastMac + i + 1) := by
    intro i h
    rw [(hi.new i nodes[i] (by simp [h])).1]
    rfl
  have hl : (b'.sys.chan b.nextChan).link = List.range' b.nextDev nodes.length := by rw [hi.chan]
  refine ⟨b', _, e, List.length_range', List.nodup_range', ?_, ?_, ?_, ?_, ?_, hl, ?_, ?_, hi.otherChan⟩
  · intro d hd
    exact (List.mem_range'_1.mp hd).1
  · intro i n d h1 h2
    have hlt : i < nodes.length := (List.getElem?_eq_some_iff.mp h1).1
    have hd : d = b.nextDev + i := by
      rw [List.getElem?_range' hlt] at h2
      injection h2 with h2
      rw [← h2, Nat.one_mul]
    subst hd
    have hv := (hi.new i n h1).1
    refine ⟨?_, ?_, ?_, ?_, ?_, ?_, ?_, ?_⟩
    · rw [hv]; rfl
    · rw [hv]; rfl
    · rw [hv]; rfl
    · rw [hv]; rfl
    · rw [hl]; exact h2
    · rw [hv]; exact ⟨hf.2.2.1, hf.2.2.2.1⟩
    · rw [hv]; exact ⟨rfl, rfl⟩
    · rw [hv]; rfl
  · intro d hd e' he' ha
    obtain ⟨i, hi', rfl⟩ := mem_range'_one hd
    obtain ⟨j, hj', rfl⟩ := mem_range'_one he'
    rw [haddr i hi', haddr j hj'] at ha
    have := Mac48.ofNat_inj (by omega) (by omega) ha
    have : i = j := by omega
    rw [this]
  · intro d hd k hk ha
    obtain ⟨i, hi', rfl⟩ := mem_range'_one hd
    rw [haddr i hi'] at ha
    have := Mac48.ofNat_inj (by omega) (by omega) ha
    omega
  · rw [hi.lastMac, List.length_range']
  · rw [hi.chan]
  · intro d hd
    exact (hi.old d (Or.inl hd)).1

/-- C57 (over whole scripts): after any sequence of installations, all devices ever installed have pairwise different
addresses, are up, sit in their node's device list at their interface index and in their channel at their slot. -/
theorem C57_all_installed (s : Sys) {is : List Install} {b : Build} (hl : ∀ i ∈ is, leoDevices i)
    (h : Build.run is (Build.start s) = .ok b) (hm : b.lastMac < 2 ^ 48) :
    (∀ d e : Nat, d < b.nextDev → e < b.nextDev → (b.sys.dev d).addr = (b.sys.dev e).addr → d = e) ∧
    ∀ d : Nat, d < b.nextDev → (b.sys.dev d).linkUp = true ∧
      ∃ n c, (b.sys.dev d).node = some n ∧ (b.nodeDevs n)[b.ifIndex d]? = some d ∧ (b.sys.dev d).chan = some c ∧
        (b.sys.chan c).link[(b.sys.dev d).chanSlot]? = some d := by
  have key : ∀ (is : List Install) (b0 : Build), Wf b0 → (∀ i ∈ is, leoDevices i) → Build.run is b0 = .ok b → Wf b := by
    intro is
    induction is with
    | nil => intro b0 w _ e; injection e with e; rw [← e]; exact w
    | cons i is ih =>
      intro b0 w hl e
      have hl' : ∀ j ∈ is, leoDevices j := fun j hj => hl j (by simp [hj])
      cases i with
      | leo h sats gnds =>
        obtain ⟨⟨b1, l⟩, e1, e2⟩ := Outcome.bind_eq_ok.mp e
        have := hl (.leo h sats gnds) (by simp)
        exact ih b1 (wf_leo w this.1 this.2 e1) hl' e2
      | isl h nodes =>
        obtain ⟨⟨b1, l⟩, e1, e2⟩ := Outcome.bind_eq_ok.mp e
        exact ih b1 (wf_isl w e1) hl' e2
  have w := key is _ (wf_start s) hl h
  have hm' := w.mac
  constructor
  · intro d e hd he ha
    rw [(w.dev d hd).1, (w.dev e he).1] at ha
    have := Mac48.ofNat_inj (by omega) (by omega) ha
    omega
  · intro d hd
    obtain ⟨_, h2, n, c, h3, h4, h5, _, h7⟩ := w.dev d hd
    exact ⟨h2, n, c, h3, h4, h5, h7⟩

/-- The conditions of the last theorem are met: two networks on the same satellites. -/
example (s : Sys) : ∃ b, Build.run [.isl IslHelper.create [1, 2], .leo LeoChannelHelper.create [1, 2] [3]] (Build.start s) =
    .ok b ∧ b.nextDev = 5 ∧ b.lastMac < 2 ^ 48 :=
  ⟨_, rfl, rfl, (show 5 < 2 ^ 48 by decide)⟩

/-- C57: installation by names is installation on the named nodes; a missing name is undefined behaviour. -/
theorem C57_by_name (h : LeoChannelHelper) (g : IslHelper) (find : String → Option NodeId) (b : Build) :
    (∀ sats gnds ns ms, sats.map find = ns.map some → gnds.map find = ms.map some →
      h.installNamed find sats gnds b = h.install ns ms b ∧ g.installNamed find sats b = g.install ns b) ∧
    (∀ sats gnds, (∃ x ∈ sats ++ gnds, find x = none) → h.installNamed find sats gnds b = .fail .nullNode) ∧
    ∀ names, (∃ x ∈ names, find x = none) → g.installNamed find names b = .fail .nullNode := by
  have hok : ∀ (xs : List String) (ns : List NodeId), xs.map find = ns.map some → findAll find xs = .ok ns := by
    intro xs
    induction xs with
    | nil => intro ns h; cases ns <;> simp_all [findAll]
    | cons x xs ih =>
      intro ns h
      cases ns with
      | nil => simp at h
      | cons n ns =>
        simp only [List.map_cons, List.cons.injEq] at h
        simp [findAll, h.1, ih ns h.2]
  have hbad : ∀ (xs : List String), (∃ x ∈ xs, find x = none) → findAll find xs = .fail .nullNode := by
    intro xs
    induction xs with
    | nil => simp
    | cons x xs ih =>
      rintro ⟨y, hy, hf⟩
      unfold findAll
      cases hx : find x with
      | none => rfl
      | some n =>
        rcases List.mem_cons.mp hy with rfl | hy
        · rw [hx] at hf; cases hf
        · simp [ih ⟨y, hy, hf⟩]
  have hcase : ∀ (xs : List String), (∃ ns, findAll find xs = .ok ns) ∨ findAll find xs = .fail .nullNode := by
    intro xs
    by_cases hx : ∃ x ∈ xs, find x = none
    · exact Or.inr (hbad xs hx)
    · left
      induction xs with
      | nil => exact ⟨[], rfl⟩
      | cons x xs ih =>
        obtain ⟨ns, hns⟩ := ih (fun ⟨y, hy, hf⟩ => hx ⟨y, by simp [hy], hf⟩)
        cases hfx : find x with
        | none => exact absurd ⟨x, by simp, hfx⟩ hx
        | some n => exact ⟨n :: ns, by simp [findAll, hfx, hns]⟩
  refine ⟨?_, ?_, ?_⟩
  · intro sats gnds ns ms h1 h2
    simp [LeoChannelHelper.installNamed, IslHelper.installNamed, hok _ _ h1, hok _ _ h2]
  · rintro sats gnds ⟨x, hx, hf⟩
    rcases List.mem_append.mp hx with hx | hx
    · simp [LeoChannelHelper.installNamed, hbad sats ⟨x, hx, hf⟩]
    · rcases hcase sats with ⟨ns, hns⟩ | hns
      · simp [LeoChannelHelper.installNamed, hns, hbad gnds ⟨x, hx, hf⟩]
      · simp [LeoChannelHelper.installNamed, hns]
  · intro names hx
    simp [IslHelper.installNamed, hbad names hx]

end Verif
