import Verif.Lemmas.HelperConf
import Verif.Props.Propagation
/-! # C59 (constellation presets) -/

namespace Verif
open Spec Real

/-- A preset was applied: `SetConstellationAttributes` was called with its row of the table and no receiver loss. -/
theorem setConstellation_of_mem {p : Preset} (hp : p ∈ presets) (h : LeoChannelHelper) :
    ∃ r : Nat, (r : Rat) = p.mbps * 10 ^ 6 ∧
      h.setConstellation p.name = h.setConstellationAttributes p.eirp p.elev p.fspl p.atm p.margin r p.rxGain 0 := by
  simp only [presets, List.mem_cons, List.not_mem_nil, or_false] at hp
  rcases hp with rfl | rfl | rfl | rfl
  · exact ⟨2682100000, by norm_num, rfl⟩
  · exact ⟨674300000, by norm_num, rfl⟩
  · exact ⟨9857100000, by norm_num, rfl⟩
  · exact ⟨599400000, by norm_num, rfl⟩

/-- C59 (what a preset configures): the constructor with a preset name succeeds, and whatever nodes are installed, all
devices get the EIRP, gain and rate of the table and no receiver loss, and the channel the table's mask and losses. -/
theorem C59_preset_installed {p : Preset} (hp : p ∈ presets) :
    ∃ h, LeoChannelHelper.createNamed p.name = .ok h ∧
      ∀ (sats gnds : List NodeId) (b : Build), b.lastMac + sats.length + gnds.length < 2 ^ 48 →
        ∃ b' ds c, h.install sats gnds b = .ok (b', ds) ∧ ds.length = sats.length + gnds.length ∧
          (b'.sys.chan c).link = ds ∧ b'.lossOf c = some (.leo ⟨p.elev, p.atm, p.fspl, p.margin⟩) ∧
          ∀ d ∈ ds, (b'.sys.dev d).txPower = p.eirp ∧ (b'.sys.dev d).rxGain = p.rxGain ∧ (b'.sys.dev d).rxLoss = 0 ∧
            ((b'.sys.dev d).rate : Rat) = p.mbps * 10 ^ 6 ∧ (b'.sys.dev d).rxThreshold = -1000 ∧
            (b'.sys.dev d).leo = true := by
  obtain ⟨r, hr, he⟩ := setConstellation_of_mem hp LeoChannelHelper.create
  obtain ⟨h, e⟩ := setConst_total (h := LeoChannelHelper.create) rfl rfl p.eirp p.elev p.fspl p.atm p.margin p.rxGain 0 r
  obtain ⟨hg, hs, hl, _⟩ := setConst_ok e
  refine ⟨h, he.trans e, fun sats gnds b hm => ?_⟩
  have g1 : h.satDev.leo = true := hs.leo
  have g2 : h.gndDev.leo = true := hg.leo
  obtain ⟨b', e', hi⟩ := leo_install_eq (sats := sats) (gnds := gnds) (b := b) g1 g2
    (by rw [List.length_append]; omega)
  refine ⟨b', _, b.nextChan, e', by simp, hi.link, by rw [hi.loss, hl], fun d hd => ?_⟩
  obtain ⟨i, hi', rfl⟩ := mem_range'_one hd
  obtain ⟨n, hn⟩ : ∃ n, (sats ++ gnds)[i]? = some n := ⟨_, List.getElem?_eq_getElem hi'⟩
  rw [(hi.new i n hn).1]
  have key : ∀ f0 f, Preconfigured p.eirp p.rxGain 0 r f0 f → Unset f0 .rxThreshold → f0.leo = true →
      f.create.txPower = p.eirp ∧ f.create.rxGain = p.rxGain ∧ f.create.rxLoss = 0 ∧
        (f.create.rate : Rat) = p.mbps * 10 ^ 6 ∧ f.create.rxThreshold = -1000 ∧ f.create.leo = true := by
    intro f0 f hf hu hleo
    have h4 : f.create.rate = r := hf.rate.create
    refine ⟨hf.txPower.create, hf.rxGain.create, hf.rxLoss.create, by rw [h4, hr], ?_, ?_⟩
    · exact Unset.create (a := .rxThreshold (-1000)) (hf.unset _ hu (by decide)) rfl
    · rw [← hleo, ← hf.leo]
      exact (create_fixed f).1
  by_cases hlt : i < sats.length
  · rw [if_pos hlt, if_pos hlt]
    exact key _ _ hs (by simp [Unset, LeoChannelHelper.create, DevAttr.key]) rfl
  · rw [if_neg hlt, if_neg hlt]
    exact key _ _ hg (by simp [Unset, LeoChannelHelper.create, DevAttr.key]) rfl

/-- C59 (links work): with a preset, in-range frames arrive above the channel's reachability limit of -900 dBm and above the
receivers' threshold, out-of-range frames below the limit, for all positions with the satellite not below the radius of
the Earth. -/
theorem C59_links {p : Preset} (hp : p ∈ presets) {h : LeoChannelHelper} (e : LeoChannelHelper.createNamed p.name = .ok h)
    {sats gnds : List NodeId} {b b' : Build} {ds : List DevId} (hi : h.install sats gnds b = .ok (b', ds))
    (hm : b.lastMac + sats.length + gnds.length < 2 ^ 48) :
    ∃ c conf, (b'.sys.chan c).link = ds ∧ b'.lossOf c = some (.leo conf) ∧
      ∀ d ∈ ds, ∀ d' ∈ ds, ∀ x y : Vec, x.len ≤ y.len → propEarthRad ≤ y.len →
        ((y - x).len ^ 2 + 2 * y.len * (y - x).len * |sin (Spec.rad p.elev)| ≤ y.len ^ 2 - propEarthRad ^ 2 →
          -900 ≤ (LeoLoss.create conf.elev conf.atm conf.fspl conf.margin).rxPower ((b'.sys.dev d).txPower : Rat) x y ∧
          (((b'.sys.dev d').rxThreshold : Rat) : ℝ) ≤
            (LeoLoss.create conf.elev conf.atm conf.fspl conf.margin).rxPower ((b'.sys.dev d).txPower : Rat) x y
              - ((b'.sys.dev d').rxLoss : Rat) + ((b'.sys.dev d').rxGain : Rat)) ∧
        (y.len ^ 2 - propEarthRad ^ 2 < (y - x).len ^ 2 + 2 * y.len * (y - x).len * |sin (Spec.rad p.elev)| →
          (LeoLoss.create conf.elev conf.atm conf.fspl conf.margin).rxPower ((b'.sys.dev d).txPower : Rat) x y < -900) := by
  obtain ⟨h1, e1, hins⟩ := C59_preset_installed hp
  rw [e] at e1
  injection e1 with e1
  subst e1
  obtain ⟨b2, ds2, c, e2, _, hlink, hloss, hdev⟩ := hins sats gnds b hm
  rw [hi] at e2
  injection e2 with e2
  injection e2 with e2 e3
  subst e2 e3
  refine ⟨c, _, hlink, hloss, fun d hd d' hd' x y hxy hR => ?_⟩
  obtain ⟨t1, _, _, _, _, _⟩ := hdev d hd
  obtain ⟨_, t2, t3, _, t4, _⟩ := hdev d' hd'
  rw [t1, t2, t3, t4]
  have helev : (-90 : ℝ) < (p.elev : ℝ) ∧ (p.elev : ℝ) < 90 ∧ (-900 : ℝ) ≤ p.eirp - p.atm - p.fspl - p.margin ∧
      (0 : ℝ) ≤ p.rxGain := by
    simp only [presets, List.mem_cons, List.not_mem_nil, or_false] at hp
    rcases hp with rfl | rfl | rfl | rfl <;> norm_num
  obtain ⟨k1, k2, k3, k4⟩ := helev
  have hacc := C44_accepted_iff (e := p.elev) (atm := p.atm) (fspl := p.fspl) (mg := p.margin) (tx := p.eirp) k1 k2 hxy hR
  refine ⟨fun hin => ?_, fun hout => ?_⟩
  · rw [hacc.1 hin]
    refine ⟨k3, ?_⟩
    push_cast
    linarith
  · rw [hacc.2 hout]
    norm_num

/-- C59 (other names): every other name is rejected, by the constructor and by `SetConstellation` on any helper. -/
theorem C59_other_names {name : String} (hn : ∀ p ∈ presets, p.name ≠ name) (h : LeoChannelHelper) :
    h.setConstellation name = .fail .unknownConstellation ∧
    LeoChannelHelper.createNamed name = .fail .unknownConstellation := by
  simp only [presets, List.mem_cons, List.not_mem_nil, or_false, forall_eq_or_imp, forall_eq] at hn
  obtain ⟨h1, h2, h3, h4⟩ := hn
  simp [LeoChannelHelper.createNamed, LeoChannelHelper.setConstellation, Ne.symm h1, Ne.symm h2, Ne.symm h3, Ne.symm h4]

/-- C59 (applied later): on any `LeoChannelHelper` whose factories make LEO devices (all reachable ones), a preset replaces
what was configured before and keeps queues, channel attributes and device types. -/
theorem C59_replaces {p : Preset} (hp : p ∈ presets) {ss : List ChanSetting} {h0 : LeoChannelHelper}
    (h0c : LeoChannelHelper.create.configure ss = .ok h0) :
    ∃ h, h0.setConstellation p.name = .ok h ∧ h.loss = ⟨p.elev, p.atm, p.fspl, p.margin⟩ ∧
      h.gndDev.create.txPower = p.eirp ∧ h.satDev.create.txPower = p.eirp ∧
      h.gndDev.create.rxGain = p.rxGain ∧ h.satDev.create.rxGain = p.rxGain ∧
      h.gndDev.create.rxLoss = 0 ∧ h.satDev.create.rxLoss = 0 ∧
      (h.gndDev.create.rate : Rat) = p.mbps * 10 ^ 6 ∧ (h.satDev.create.rate : Rat) = p.mbps * 10 ^ 6 ∧
      h.gndQueue = h0.gndQueue ∧ h.satQueue = h0.satQueue ∧ h.chan = h0.chan := by
  have hleo : h0.gndDev.leo = true ∧ h0.satDev.leo = true := leo_configure ⟨rfl, rfl⟩ h0c
  obtain ⟨r, hr, he⟩ := setConstellation_of_mem hp h0
  obtain ⟨h, e⟩ := setConst_total hleo.1 hleo.2 p.eirp p.elev p.fspl p.atm p.margin p.rxGain 0 r
  obtain ⟨hg, hs, hl, _, hc, hq1, hq2⟩ := setConst_ok e
  have r1 : h.gndDev.create.rate = r := hg.rate.create
  have r2 : h.satDev.create.rate = r := hs.rate.create
  exact ⟨h, he.trans e, hl, hg.txPower.create, hs.txPower.create, hg.rxGain.create, hs.rxGain.create, hg.rxLoss.create,
    hs.rxLoss.create, by rw [r1, hr], by rw [r2, hr], hq1, hq2, hc⟩

example : ∃ h, LeoChannelHelper.create.configure [.gndDevice (.txPower 3), .constellation "TelesatUser"] = .ok h ∧
    ∃ h', h.setConstellation "StarlinkUser" = .ok h' ∧ h'.gndDev.create.txPower = 66.7 :=
  ⟨_, rfl, _, rfl, by decide +kernel⟩

end Verif
