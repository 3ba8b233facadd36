import Verif.Lemmas.HelperConf
import Verif.Lemmas.NeighbourCache
import Verif.Props.NeighbourCache
/-! # C60 (settings of `LeoHelper`), C58 for `LeoHelper` -/

namespace Verif
open Spec

/-- Length condition on the addresses still available. -/
def Room (b : Build) (sats gws uts : List NodeId) : Prop :=
  b.lastMac + 3 * sats.length + gws.length + uts.length < 2 ^ 48

theorem leo_of_configure {ss : List Setting} {h : LeoHelper} (hc : LeoHelper.create.configure ss = .ok h) :
    ∀ k, k ≠ .isl → (h.devFactory k).leo = true := by
  intro k hk
  rw [configure_leo hc k]
  cases k <;> first | rfl | exact absurd rfl hk

/-- C60 (device attributes, the part that holds): the last setting of an attribute for a kind of devices is in force on
every installed device of that kind, except for the address and the queue, which the installation itself sets.
The full claim also needs `SetQueue` and the channel attributes to take effect, which they do not on all
devices/channels: `C60_isl_queue_unreachable`, `C60_channel_attributes_lost`. -/
theorem C60_device_partial {pre post : List Setting} {s : Setting} {h : LeoHelper}
    (hc : LeoHelper.create.configure (pre ++ s :: post) = .ok h) {k : Kind} {a : DevAttr} (hs : devFor k s = some a)
    (hp : ∀ t ∈ post, ∀ x, devFor k t = some x → x.key ≠ a.key) (h1 : a.key ≠ .address) (h2 : a.key ≠ .txQueue)
    (b : Build) (sats gws uts : List NodeId) (hm : Room b sats gws uts) :
    ∃ b' n, h.installNets sats gws uts b = .ok (b', n) ∧ ∀ d ∈ devsOf n sats.length k, InForce (b'.sys.dev d) a := by
  obtain ⟨b', n, e, hi⟩ := installNets_eq (leo_of_configure hc) hm
  refine ⟨b', n, e, fun d hd => ?_⟩
  obtain ⟨ha, e1, e2⟩ := configure_append hc
  obtain ⟨hb, e3, e4⟩ := configure_cons e2
  have hl : LastIs (hb.devFactory k) a := set_lastIs (((apply_ok e3).dev k).1 a hs)
  have hf := (configure_lastIs e4 hl hp).create
  obtain ⟨⟨nd, c, i, hv⟩, _⟩ := hi.dev k d hd
  rw [hv]
  cases a <;> first | exact absurd rfl h1 | exact absurd rfl h2 | exact hf

/-- C60 (defaults): an attribute no setting gives to a kind keeps its default on the devices of that kind (the device type:
the constructor's value). -/
theorem C60_device_defaults {ss : List Setting} {h : LeoHelper} (hc : LeoHelper.create.configure ss = .ok h) {k : Kind}
    {key : DevKey} (hn : ∀ t ∈ ss, ∀ x, devFor k t = some x → x.key ≠ key)
    (b : Build) (sats gws uts : List NodeId) (hm : Room b sats gws uts) :
    ∃ b' n, h.installNets sats gws uts b = .ok (b', n) ∧ ∀ d ∈ devsOf n sats.length k,
      (key = .mtu → (b'.sys.dev d).mtu = 1500) ∧ (key = .rate → (b'.sys.dev d).rate = 32768) ∧
      (key = .gap → (b'.sys.dev d).gap = 0) ∧ (key = .rxThreshold → (b'.sys.dev d).rxThreshold = -1000) ∧
      (key = .txPower → (b'.sys.dev d).txPower = 1) ∧ (key = .rxGain → (b'.sys.dev d).rxGain = 0) ∧
      (key = .rxLoss → (b'.sys.dev d).rxLoss = 0) ∧
      (key = .deviceType → k = .gwSat ∨ k = .utSat → (b'.sys.dev d).side = .sat) ∧
      (key = .deviceType → k = .gwGnd ∨ k = .utGnd → (b'.sys.dev d).side = .gnd) := by
  obtain ⟨b', n, e, hi⟩ := installNets_eq (leo_of_configure hc) hm
  refine ⟨b', n, e, fun d hd => ?_⟩
  obtain ⟨⟨nd, c, i, hv⟩, _⟩ := hi.dev k d hd
  have hun : ∀ a : DevAttr, key = a.key → a.key ≠ .deviceType → InForce (Dev.blank (h.devFactory k).leo) a →
      InForce (h.devFactory k).create a := by
    rintro a rfl ht hd
    refine Unset.create (configure_unset hc ?_ hn) hd
    cases k <;> simp [Unset, LeoHelper.devFactory, LeoHelper.create, LeoChannelHelper.create, IslHelper.create,
      DevAttr.key] <;> exact fun h => ht h.symm
  have hty : ∀ s : Side, key = .deviceType → LastIs (LeoHelper.create.devFactory k) (.deviceType s) →
      (h.devFactory k).create.side = s := by
    rintro s rfl hl
    exact (configure_lastIs hc hl hn).create
  rw [hv]
  refine ⟨fun hk => ?_, fun hk => ?_, fun hk => ?_, fun hk => ?_, fun hk => ?_, fun hk => ?_, fun hk => ?_, fun hk ht => ?_,
    fun hk ht => ?_⟩
  · exact hun (.mtu 1500) hk (by decide) rfl
  · exact hun (.rate 32768) hk (by decide) rfl
  · exact hun (.gap 0) hk (by decide) rfl
  · exact hun (.rxThreshold (-1000)) hk (by decide) rfl
  · exact hun (.txPower 1) hk (by decide) rfl
  · exact hun (.rxGain 0) hk (by decide) rfl
  · exact hun (.rxLoss 0) hk (by decide) rfl
  · refine hty .sat hk ⟨[], [], ?_, by simp⟩
    rcases ht with rfl | rfl <;> rfl
  · refine hty .gnd hk ⟨[], [], ?_, by simp⟩
    rcases ht with rfl | rfl <;> rfl

/-- C60 (device attributes that are lost): whatever is set, every device gets the address allocated by the installation and
the queue of its queue factory, so settings of the attributes `Address` and `TxQueue` have no effect. -/
theorem C60_address_overwritten {ss : List Setting} {h : LeoHelper} (hc : LeoHelper.create.configure ss = .ok h)
    (b : Build) (sats gws uts : List NodeId) (hm : Room b sats gws uts) :
    ∃ b' n, h.installNets sats gws uts b = .ok (b', n) ∧ ∀ k, ∀ d ∈ devsOf n sats.length k,
      (b'.sys.dev d).addr = Mac48.ofNat (b.lastMac + (d - b.nextDev) + 1) ∧
      ∃ q, b'.queueOf d = some q ∧ (b'.sys.dev d).cap = (queueParam q "MaxSize").getD 100 := by
  obtain ⟨b', n, e, hi⟩ := installNets_eq (leo_of_configure hc) hm
  refine ⟨b', n, e, fun k d hd => ?_⟩
  obtain ⟨⟨nd, c, i, hv⟩, hq⟩ := hi.dev k d hd
  refine ⟨by rw [hv]; rfl, _, hq, ?_⟩
  rw [hv]
  show (((h.queueFactory k).create.params.lookup "MaxSize").getD 100) = _
  congr 1
  unfold queueParam
  induction (h.queueFactory k).create.params with
  | nil => rfl
  | cons p l ih =>
    rw [List.lookup_cons, List.find?_cons]
    by_cases hp : p.1 = "MaxSize"
    · simp [hp]
    · rw [show (p.1 == "MaxSize") = false from beq_eq_false_iff_ne.mpr hp,
        show ("MaxSize" == p.1) = false from beq_eq_false_iff_ne.mpr (Ne.symm hp)]
      exact ih

/-- C60 (queues, the part that holds): on gateway and terminal networks the queue type is that of the last queue setting
for the kind of devices, and each queue attribute has the value of the last setting for the kind that names it.
Missing for the full claim: the inter-satellite devices (`C60_isl_queue_unreachable`). -/
theorem C60_queue_partial {pre post : List Setting} {s : Setting} {h : LeoHelper}
    (hc : LeoHelper.create.configure (pre ++ s :: post) = .ok h) {k : Kind} (hk : k ≠ .isl) {a : QueueArgs}
    (hs : queueFor k s = some a) (hp : ∀ t ∈ post, queueFor k t = none)
    (b : Build) (sats gws uts : List NodeId) (hm : Room b sats gws uts) :
    ∃ b' n, h.installNets sats gws uts b = .ok (b', n) ∧ ∀ d ∈ devsOf n sats.length k, ∃ q, b'.queueOf d = some q ∧
      q.tid = appendItemType a.type ∧
      (∀ name v, (argPairs a).reverse.find? (fun p => p.1 == name) = some (name, v) → queueParam q name = some v) ∧
      (∀ v, (argPairs a).reverse.find? (fun p => p.1 == "MaxSize") = some ("MaxSize", v) → (b'.sys.dev d).cap = v) := by
  obtain ⟨b', n, e, hn⟩ := C60_address_overwritten hc b sats gws uts hm
  obtain ⟨b1, n1, e1, hi⟩ := installNets_eq (leo_of_configure hc) hm
  rw [e] at e1
  injection e1 with e1
  injection e1 with e1 e2
  subst e1 e2
  refine ⟨b', n, e, fun d hd => ?_⟩
  have hq := (hi.dev k d hd).2
  have hfac : h.queueFactory k =
      ((pre.filterMap (queueFor k)).foldl QueueFactory.setQueue (LeoHelper.create.queueFactory k)).setQueue a := by
    rw [configure_queue hc hk, List.filterMap_append, List.filterMap_cons_some hs, List.foldl_append, List.foldl_cons]
    have : post.filterMap (queueFor k) = [] := by
      rw [List.filterMap_eq_nil_iff]; exact hp
    rw [this]
    rfl
  have hpar : ∀ name v, (argPairs a).reverse.find? (fun p => p.1 == name) = some (name, v) →
      queueParam (h.queueFactory k).create name = some v := by
    intro name v hf
    rw [hfac, setQueue_param, hf]
    rfl
  refine ⟨_, hq, ?_, hpar, ?_⟩
  · show (h.queueFactory k).tid = _
    rw [hfac, setQueue_tid]
  · intro v hf
    obtain ⟨q, h1, h2⟩ := (hn k d hd).2
    rw [hq] at h1
    injection h1 with h1
    rw [h2, ← h1, hpar _ _ hf]
    rfl

/-- C60 (queue attributes set earlier): a setting that does not name an attribute keeps the value of an earlier one, even if
it changes the queue type. -/
theorem C60_queue_attribute_kept {pre post : List Setting} {s : Setting} {h : LeoHelper}
    (hc : LeoHelper.create.configure (pre ++ s :: post) = .ok h) {k : Kind} (hk : k ≠ .isl) {a : QueueArgs}
    (hs : queueFor k s = some a) {name : String} {v : Nat}
    (hv : (argPairs a).reverse.find? (fun p => p.1 == name) = some (name, v))
    (hp : ∀ t ∈ post, ∀ x, queueFor k t = some x → ∀ p ∈ argPairs x, p.1 ≠ name)
    (b : Build) (sats gws uts : List NodeId) (hm : Room b sats gws uts) :
    ∃ b' n, h.installNets sats gws uts b = .ok (b', n) ∧ ∀ d ∈ devsOf n sats.length k, ∃ q, b'.queueOf d = some q ∧
      queueParam q name = some v := by
  obtain ⟨b', n, e, hi⟩ := installNets_eq (leo_of_configure hc) hm
  refine ⟨b', n, e, fun d hd => ⟨_, (hi.dev k d hd).2, ?_⟩⟩
  rw [configure_queue hc hk, List.filterMap_append, List.filterMap_cons_some hs, List.foldl_append, List.foldl_cons]
  have key : ∀ (l : List QueueArgs) (f : QueueFactory), queueParam f.create name = some v →
      (∀ x ∈ l, ∀ p ∈ argPairs x, p.1 ≠ name) → queueParam (l.foldl QueueFactory.setQueue f).create name = some v := by
    intro l
    induction l with
    | nil => intro f h _; exact h
    | cons x l ih =>
      intro f h hx
      rw [List.foldl_cons]
      refine ih _ ?_ fun y hy => hx y (by simp [hy])
      rw [setQueue_param]
      have : (argPairs x).reverse.find? (fun p => p.1 == name) = none := by
        rw [List.find?_eq_none]
        intro p hp
        simpa using hx x (by simp) p (List.mem_reverse.mp hp)
      rw [this, h]
      rfl
  refine key _ _ ?_ ?_
  · rw [setQueue_param, hv]; rfl
  · intro x hx
    obtain ⟨t, ht, hq⟩ := List.mem_filterMap.mp hx
    exact hp t ht x hq

/-- C60 is false for queues: no sequence of settings reaches the queues of the inter-satellite devices, they are always
`DropTailQueue`s of 100 packets. -/
theorem C60_isl_queue_unreachable {ss : List Setting} {h : LeoHelper} (hc : LeoHelper.create.configure ss = .ok h)
    (b : Build) (sats gws uts : List NodeId) (hm : Room b sats gws uts) :
    ∃ b' n, h.installNets sats gws uts b = .ok (b', n) ∧ n.isl.length = sats.length ∧
      ∀ d ∈ n.isl, b'.queueOf d = some ⟨"ns3::DropTailQueue<Packet>", []⟩ ∧ (b'.sys.dev d).cap = 100 := by
  obtain ⟨b', n, e, hi⟩ := installNets_eq (leo_of_configure hc) hm
  refine ⟨b', n, e, by rw [hi.isl, List.length_range'], fun d hd => ?_⟩
  obtain ⟨⟨nd, c, i, hv⟩, hq⟩ := hi.dev .isl d hd
  rw [configure_islQueue hc] at hq hv
  exact ⟨hq, by rw [hv]; rfl⟩

/-- C60 is false for channels: whatever channel attributes are set, the gateway and terminal channels get the default loss
model and the delay model with the speed of light in air. -/
theorem C60_channel_attributes_lost {ss : List Setting} {h : LeoHelper} (hc : LeoHelper.create.configure ss = .ok h)
    (b : Build) (sats gws uts : List NodeId) (hm : Room b sats gws uts) :
    ∃ b' n, h.installNets sats gws uts b = .ok (b', n) ∧ ∃ gwChan utChan, gwChan ≠ utChan ∧
      (b'.sys.chan gwChan).link = n.gw ∧ (b'.sys.chan utChan).link = n.ut ∧
      ∀ c, c = gwChan ∨ c = utChan → b'.lossOf c = some (.leo ⟨40, 0, 0, 0⟩) ∧
        b'.delayOf c = some (.constantSpeed 299702458) := by
  obtain ⟨b', n, e, hi⟩ := installNets_eq (leo_of_configure hc) hm
  obtain ⟨m1, m2, m3, m4⟩ := configure_models hc
  refine ⟨b', n, e, b.nextChan + 1, b.nextChan + 2, ?_, hi.links.2.1, hi.links.2.2, ?_⟩
  · exact (show (b.nextChan + 1 : Nat) ≠ b.nextChan + 2 by omega)
  · rintro c (rfl | rfl)
    · rw [hi.gwModels.1, hi.gwModels.2, m1, m2]; exact ⟨rfl, rfl⟩
    · rw [hi.utModels.1, hi.utModels.2, m3, m4]; exact ⟨rfl, rfl⟩

/-- C60 (channels, the part that holds): on the inter-satellite channel the last setting of each channel attribute is in
force, and the constructor's models otherwise. -/
theorem C60_isl_channel_partial {ss : List Setting} {h : LeoHelper} (hc : LeoHelper.create.configure ss = .ok h)
    (b : Build) (sats gws uts : List NodeId) (hm : Room b sats gws uts) :
    ∃ b' n, h.installNets sats gws uts b = .ok (b', n) ∧ ∃ c, (b'.sys.chan c).link = n.isl ∧
      (∀ pre post s m, ss = pre ++ s :: post → chanFor .isl s = some (.loss m) →
        (∀ t ∈ post, ∀ m', chanFor .isl t ≠ some (.loss m')) → b'.lossOf c = m) ∧
      (∀ pre post s m, ss = pre ++ s :: post → chanFor .isl s = some (.delay m) →
        (∀ t ∈ post, ∀ m', chanFor .isl t ≠ some (.delay m')) → b'.delayOf c = m) ∧
      ((∀ t ∈ ss, ∀ m', chanFor .isl t ≠ some (.loss m')) → b'.lossOf c = some .isl) ∧
      ((∀ t ∈ ss, ∀ m', chanFor .isl t ≠ some (.delay m')) → b'.delayOf c = some (.constantSpeed 299792458)) := by
  obtain ⟨b', n, e, hi⟩ := installNets_eq (leo_of_configure hc) hm
  have hf := configure_chan hc .isl
  have hloss : ∀ (l : List ChanAttr) (f : ChanFactory), (∀ x ∈ l, ∀ m, x ≠ .loss m) → (l.foldl ChanFactory.set f).loss = f.loss := by
    intro l
    induction l with
    | nil => intro f _; rfl
    | cons x l ih =>
      intro f hx
      rw [List.foldl_cons, ih _ fun y hy => hx y (by simp [hy])]
      cases x with
      | loss m => exact absurd rfl (hx (.loss m) (by simp) m)
      | delay m => rfl
  have hdelay : ∀ (l : List ChanAttr) (f : ChanFactory), (∀ x ∈ l, ∀ m, x ≠ .delay m) →
      (l.foldl ChanFactory.set f).delay = f.delay := by
    intro l
    induction l with
    | nil => intro f _; rfl
    | cons x l ih =>
      intro f hx
      rw [List.foldl_cons, ih _ fun y hy => hx y (by simp [hy])]
      cases x with
      | delay m => exact absurd rfl (hx (.delay m) (by simp) m)
      | loss m => rfl
  have hl1 := hi.islModels.1
  have hl2 := hi.islModels.2
  rw [show h.isl.chan = h.chanFactory .isl from rfl, hf] at hl1 hl2
  refine ⟨b', n, e, b.nextChan, hi.links.1, ?_, ?_, ?_, ?_⟩
  · rintro pre post s m rfl hs hp
    rw [hl1, List.filterMap_append, List.filterMap_cons_some hs, List.foldl_append, List.foldl_cons, hloss]
    · rfl
    · intro x hx m' he
      obtain ⟨t, ht, hq⟩ := List.mem_filterMap.mp hx
      exact hp t ht m' (by rw [hq, he])
  · rintro pre post s m rfl hs hp
    rw [hl2, List.filterMap_append, List.filterMap_cons_some hs, List.foldl_append, List.foldl_cons, hdelay]
    · rfl
    · intro x hx m' he
      obtain ⟨t, ht, hq⟩ := List.mem_filterMap.mp hx
      exact hp t ht m' (by rw [hq, he])
  · intro hp
    rw [hl1, hloss]
    · rfl
    · intro x hx m' he
      obtain ⟨t, ht, hq⟩ := List.mem_filterMap.mp hx
      exact hp t ht m' (by rw [hq, he])
  · intro hp
    rw [hl2, hdelay]
    · rfl
    · intro x hx m' he
      obtain ⟨t, ht, hq⟩ := List.mem_filterMap.mp hx
      exact hp t ht m' (by rw [hq, he])

/-- C60: `SetDeviceAttribute` ends the program exactly for the attributes the inter-satellite devices do not have. -/
theorem C60_device_setting_rejected_iff {ss : List Setting} {h : LeoHelper}
    (hc : LeoHelper.create.configure ss = .ok h) (a : DevAttr) :
    (h.apply (.device a) = .fail .invalidAttribute ↔ a.key = .deviceType ∨ a.key = .rxGain ∨ a.key = .rxLoss) ∧
    (¬ (a.key = .deviceType ∨ a.key = .rxGain ∨ a.key = .rxLoss) → ∃ h', h.apply (.device a) = .ok h') := by
  have h0 : h.isl.dev.leo = false := (configure_leo hc .isl).trans rfl
  have h1 : h.gw.gndDev.leo = true := (configure_leo hc .gwGnd).trans rfl
  have h2 : h.gw.satDev.leo = true := (configure_leo hc .gwSat).trans rfl
  have h3 : h.ut.gndDev.leo = true := (configure_leo hc .utGnd).trans rfl
  have h4 : h.ut.satDev.leo = true := (configure_leo hc .utSat).trans rfl
  cases a <;> simp [LeoHelper.apply, IslHelper.setDevice, LeoChannelHelper.setGndDevice, LeoChannelHelper.setSatDevice,
    DevFactory.set, DevKey.leoOnly, DevAttr.key, h0, h1, h2, h3, h4]

/-- The hypotheses of `C60_device_partial`, `C60_queue_partial` and `C60_queue_attribute_kept` in one sequence: the MTU and
the queue of the gateways are set, then a queue of another type without a size. -/
example (s : Sys) : ∃ h, LeoHelper.create.configure ([] ++ .queue { type := "ns3::DropTailQueue", n1 := ("MaxSize", 5) } ::
      [.device (.mtu 900), .gndGwQueue { type := "ns3::RedQueue" }]) = .ok h ∧
    devFor .utSat (.device (.mtu 900)) = some (.mtu 900) ∧
    queueFor .gwGnd (.queue { type := "ns3::DropTailQueue", n1 := ("MaxSize", 5) }) =
      some { type := "ns3::DropTailQueue", n1 := ("MaxSize", 5) } ∧
    (argPairs { type := "ns3::DropTailQueue", n1 := ("MaxSize", 5) }).reverse.find? (fun p => p.1 == "MaxSize") =
      some ("MaxSize", 5) ∧
    (∀ x, queueFor .gwGnd (.gndGwQueue { type := "ns3::RedQueue" }) = some x → ∀ p ∈ argPairs x, p.1 ≠ "MaxSize") ∧
    Room (Build.start s) [1, 2] [3] [4, 5] := by
  refine ⟨_, rfl, rfl, rfl, by decide +kernel, ?_, (show 0 + 3 * 2 + 1 + 2 < 2 ^ 48 by decide)⟩
  rintro x ⟨rfl⟩
  simp [argPairs]

/-- Settings of all sorts are accepted, so the theorems above are about something. -/
example : ∃ h, LeoHelper.create.configure [.queue { type := "ns3::DropTailQueue", n1 := ("MaxSize", 5) }, .device (.mtu 900),
    .gndGwDevice (.rxGain 3), .channel (.loss none), .islChannel (.delay (some (.other 1)))] = .ok h := ⟨_, rfl⟩

/-- C58 for `LeoHelper`: with one satellite and one terminal `Install` always reads past the end of the terminal network's
two interfaces (the satellite's third device has interface index at least 2), whatever the gateways, addresses and earlier
installations. -/
theorem C58_leo_helper_out_of_range {ss : List Setting} {h : LeoHelper} (hc : LeoHelper.create.configure ss = .ok h)
    (ht : ∀ s ∈ ss, ∀ k x, devFor k s = some x → x.key ≠ .deviceType) (b : Build) (sat ut : NodeId) (gws : List NodeId)
    (islIps gwIps utIps : List Ip) (hu : utIps.length = 2) (ca : DevId → Cache) (hm : Room b [sat] gws [ut]) :
    h.install [sat] gws [ut] islIps gwIps utIps ca b = .fail .indexOutOfRange := by
  have hleo := leo_of_configure hc
  unfold Room at hm
  simp only [List.length_cons, List.length_nil] at hm
  obtain ⟨b1, e1, i1⟩ := isl_install_eq (h := h.isl) (nodes := [sat]) (b := b) (by simp only [List.length_cons, List.length_nil]; omega)
  obtain ⟨b2, e2, i2⟩ := leo_install_eq (h := h.gw) (sats := [sat]) (gnds := gws) (b := b1) (hleo .gwSat (by decide))
    (hleo .gwGnd (by decide)) (by rw [i1.lastMac, List.length_append]; simp only [List.length_cons, List.length_nil]; omega)
  obtain ⟨b3, e3, i3⟩ := leo_install_eq (h := h.ut) (sats := [sat]) (gnds := [ut]) (b := b2) (hleo .utSat (by decide))
    (hleo .utGnd (by decide)) (by
      rw [i2.lastMac, i1.lastMac, List.length_append, List.length_append]
      simp only [List.length_cons, List.length_nil]; omega)
  have hnets : h.installNets [sat] gws [ut] b = .ok (b3, ⟨List.range' b.nextDev [sat].length,
      List.range' b1.nextDev ([sat] ++ gws).length, List.range' b2.nextDev ([sat] ++ [ut]).length⟩) := by
    simp only [LeoHelper.installNets, e1, e2, e3, Outcome.ok_bind]
  have hfail : ∀ (all ds : List DevId) (ips : List Ip) (i : Nat) (ca : DevId → Cache) f,
      fillAll b3 ips all ds i ca = .fail f → f = .indexOutOfRange := by
    intro all ds ips
    induction ds with
    | nil => intro i ca f h; cases h
    | cons x ds ih =>
      intro i ca f h
      rcases Outcome.bind_eq_fail.mp h with h | ⟨k, _, h⟩
      · exact fillOne_fail h
      · exact ih _ _ _ h
  have hside1 : (b3.sys.dev b2.nextDev).side = .sat := by
    have := (i3.new 0 sat rfl).1
    rw [Nat.add_zero] at this
    rw [this]
    have hl : LastIs (h.devFactory .utSat) (.deviceType .sat) :=
      configure_lastIs hc ⟨[], [], rfl, by simp⟩ fun s hs x hx => ht s hs .utSat x hx
    exact hl.create
  have hside2 : (b3.sys.dev (b2.nextDev + 1)).side = .gnd := by
    rw [(i3.new 1 ut rfl).1]
    have hl : LastIs (h.devFactory .utGnd) (.deviceType .gnd) :=
      configure_lastIs hc ⟨[], [], rfl, by simp⟩ fun s hs x hx => ht s hs .utGnd x hx
    exact hl.create
  have hidx : 2 ≤ b3.ifIndex b2.nextDev := by
    have h3 := (i3.new 0 sat rfl).2.1
    have h2 := i2.nodeDevs sat
    have h1 := i1.nodeDevs sat
    rw [Nat.add_zero] at h3
    rw [h3, h2, h1]
    simp
    omega
  have hut : ∀ ca, arpInstall b3 (List.range' b2.nextDev ([sat] ++ [ut]).length) utIps ca = .fail .indexOutOfRange := by
    intro ca
    refine C58_out_of_range (i := 1) (j := 0) (d := b2.nextDev + 1) (e := b2.nextDev) ca rfl rfl (by decide) ?_ (by omega)
    unfold Peers
    rw [hside1, hside2]
    simp
  unfold LeoHelper.install
  simp only [hnets, Outcome.ok_bind, hut]
  cases h1 : arpInstall b3 (List.range' b.nextDev [sat].length) islIps ca with
  | fail f => rw [hfail _ _ _ _ _ _ h1]; rfl
  | ok ca1 =>
    rw [Outcome.ok_bind]
    cases h2 : arpInstall b3 (List.range' b1.nextDev ([sat] ++ gws).length) gwIps ca1 with
    | fail f => rw [hfail _ _ _ _ _ _ h2]; rfl
    | ok ca2 => rfl

/-- The theorem applies to the default helper and no gateways. -/
example (s : Sys) (ca : DevId → Cache) : LeoHelper.create.install [7] [] [8] [1] [2] [3, 4] ca (Build.start s) =
    .fail .indexOutOfRange :=
  C58_leo_helper_out_of_range (ss := []) rfl (by simp) _ _ _ _ _ _ _ rfl _ (show 0 + 3 * 1 + 0 + 1 < 2 ^ 48 by decide)

end Verif
