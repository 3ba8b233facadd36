import Verif.Spec.Example
import Verif.Lemmas.Fleet
import Verif.Lemmas.HelperConf
import Verif.Props.HelperRun
import Verif.Props.OrbitSched
import Verif.Props.Presets
/-! Building the network of the example programs. -/

namespace Verif
open Real Spec

/-! ### The grid -/

theorem takeN_total {α σ : Type} {next : σ → Outcome (α × σ)} {I : σ → Prop} {Q : α → Prop}
    (h : ∀ s, I s → ∃ r, next s = .ok r ∧ Q r.1 ∧ I r.2) :
    ∀ (n : Nat) (s : σ), I s → ∃ l s', takeN next n s = .ok (l, s') ∧ l.length = n ∧ ∀ x ∈ l, Q x := by
  intro n
  induction n with
  | zero => intro s _; exact ⟨[], s, rfl, rfl, by simp⟩
  | succ n ih =>
    intro s hs
    obtain ⟨⟨x, s1⟩, e1, q1, i1⟩ := h s hs
    obtain ⟨l, s2, e2, hl, hq⟩ := ih s1 i1
    refine ⟨x :: l, s2, by simp only [takeN, e1, e2, Outcome.ok_bind], by simp [hl], ?_⟩
    intro y hy
    rcases List.mem_cons.mp hy with rfl | hy
    · exact q1
    · exact hq y hy

theorem gridInstall_total (L M : Nat) : ∃ ps, gridInstall L M = .ok ps ∧ ps.length = M * L % 2 ^ 32 ∧
    ∀ x ∈ ps, ∃ v, x = some v ∧ v.len = 6371000 := by
  unfold gridInstall
  by_cases h0 : L = 0 ∨ M = 0
  · have : M * L % 2 ^ 32 = 0 := by rcases h0 with rfl | rfl <;> simp
    rw [this]
    exact ⟨[], rfl, rfl, by simp⟩
  · push Not at h0
    obtain ⟨l, s', e, hl, hq⟩ := takeN_total (next := PolarAlloc.next) (I := fun a => a.latNum = L ∧ a.lonNum = M)
      (Q := fun x => ∃ v, x = some v ∧ v.len = 6371000) (by
        rintro a ⟨h1, h2⟩
        have hz : ¬ (a.latNum = 0 ∨ a.lonNum = 0) := by rw [h1, h2]; exact fun h => h.elim h0.1 h0.2
        have hM : ¬ a.lonNum = 0 := by rw [h2]; exact h0.2
        have : ∃ v a', a.next = .ok (some v, a') ∧ a'.latNum = L ∧ a'.lonNum = M := by
          unfold PolarAlloc.next
          simp only [if_neg hz, if_neg hM]
          split
          · exact ⟨_, _, rfl, h1, h2⟩
          · exact ⟨_, _, rfl, h1, h2⟩
        obtain ⟨v, a', e, e1, e2⟩ := this
        exact ⟨_, e, ⟨v, rfl, C41_on_surface e⟩, e1, e2⟩) (M * L % 2 ^ 32) (PolarAlloc.create L M) ⟨rfl, rfl⟩
    exact ⟨l, by rw [e]; rfl, hl, hq⟩

/-! ### Traffic keeps what matters -/

/-- Parts of a device that plain traffic does not change. -/
structure Kept (v w : Dev) : Prop where
  leo : v.leo = w.leo
  side : v.side = w.side
  node : v.node = w.node
  addr : v.addr = w.addr
  linkUp : v.linkUp = w.linkUp
  cap : v.cap = w.cap
  chan : v.chan = w.chan
  txPower : v.txPower = w.txPower
  rxThreshold : v.rxThreshold = w.rxThreshold
  rxGain : v.rxGain = w.rxGain
  rxLoss : v.rxLoss = w.rxLoss

theorem Kept.refl (v : Dev) : Kept v v := ⟨rfl, rfl, rfl, rfl, rfl, rfl, rfl, rfl, rfl, rfl, rfl⟩

theorem Kept.trans {u v w : Dev} (h : Kept u v) (k : Kept v w) : Kept u w :=
  ⟨h.1.trans k.1, h.2.trans k.2, h.3.trans k.3, h.4.trans k.4, h.5.trans k.5, h.6.trans k.6, h.7.trans k.7, h.8.trans k.8,
    h.9.trans k.9, h.10.trans k.10, h.11.trans k.11⟩

theorem kept_step {E : Env} {s s' : Sys} {op : Op} (ht : PlainTraffic op) (h : step E s op = .ok s') (x : DevId) :
    Kept (s'.dev x) (s.dev x) := by
  have set : ∀ (d : DevId) (v : Dev), Kept v (s.dev d) → Kept ((s.setDev d v).dev x) (s.dev x) := by
    intro d v hv
    by_cases hx : x = d
    · subst hx; simpa [Sys.setDev] using hv
    · simpa [Sys.setDev, hx] using Kept.refl _
  cases op with
  | send d p dest proto =>
    rcases send_ok h with ⟨_, rfl⟩ | ⟨hlu, _, m, hm, f, hf, hcase⟩
    · exact Kept.refl _
    · rcases hcase with ⟨_, rfl⟩ | ⟨hlen, hb, rfl⟩ | ⟨hlen, hb, g, rest, s3, hq, hts, rfl⟩
      · exact Kept.refl _
      · by_cases hx : x = d <;> simp [hx] <;> constructor <;> rfl
      · obtain ⟨_, c, src, rs, b, hchan, _, _, rfl⟩ := transmitStart_ok hts
        by_cases hx : x = d <;> simp [txState, hx] <;> constructor <;> rfl
  | sendFrom => injection h with h; subst h; exact Kept.refl _
  | attach d c => exact ht.elim
  | detach c slot => exact ht.elim
  | setAddress d a => exact ht.elim
  | setSide d a => exact ht.elim
  | setTxPower d a => exact ht.elim
  | setRxThreshold d a => exact ht.elim
  | setRxGain d a => exact ht.elim
  | setRxLoss d a => exact ht.elim
  | run =>
    simp only [step, run] at h
    split at h
    · injection h with h; subst h; exact Kept.refl _
    · rename_i p ps hp
      obtain ⟨t, a⟩ := p
      cases a with
      | receive d f src rx =>
        obtain ⟨l, hl, rfl⟩ := receive_ok h
        exact Kept.refl _
      | txComplete d dest =>
        obtain ⟨hb, _, f, hcur, hcase⟩ := transmitComplete_ok h
        rcases hcase with ⟨hq, rfl⟩ | ⟨q, rest, hq, hts⟩
        · by_cases hx : x = d <;> simp [hx] <;> constructor <;> rfl
        · obtain ⟨_, c, src, rs, b, hchan, _, _, hs3⟩ := transmitStart_ok hts
          rw [hs3]
          by_cases hx : x = d <;> simp [txState, hx] <;> constructor <;> rfl
  | wait dt =>
    simp only [step] at h
    split at h <;> injection h with h <;> subst h <;> exact Kept.refl _
  | setRate d r => injection h with h; subst h; apply set; constructor <;> rfl
  | setGap d r => injection h with h; subst h; apply set; constructor <;> rfl
  | setMtu d r => injection h with h; subst h; apply set; constructor <;> rfl
  | setPromisc d r => injection h with h; subst h; apply set; constructor <;> rfl

theorem kept_exec {E : Env} {ops : List Op} : ∀ {s s' : Sys}, (∀ op ∈ ops, PlainTraffic op) → exec E s ops = .ok s' →
    (∀ x, Kept (s'.dev x) (s.dev x)) ∧ s'.chan = s.chan := by
  induction ops with
  | nil => intro s s' _ h; injection h with h; subst h; exact ⟨fun _ => Kept.refl _, rfl⟩
  | cons op ops ih =>
    intro s s' ht h
    simp only [exec] at h
    rw [Outcome.bind_eq_ok] at h
    obtain ⟨s1, h1, h2⟩ := h
    obtain ⟨k1, k2⟩ := ih (fun o ho => ht o (List.mem_cons_of_mem _ ho)) h2
    have hop := ht op List.mem_cons_self
    refine ⟨fun x => (k1 x).trans (kept_step hop h1 x), k2.trans ?_⟩
    rcases chan_step h1 with h | ⟨d, c, rfl⟩ | ⟨c, sl, rfl⟩
    · exact h
    · exact hop.elim
    · exact hop.elim

theorem plain_traffic {op : Op} (h : PlainTraffic op) : Traffic op := by
  cases op <;> first | exact h | exact h.elim | exact True.intro

/-! ### The network -/

/-- Number of satellites. -/
noncomputable def satCount (a : ExampleArgs) : Nat := (places a.orbits).length

/-- What has been built. -/
structure Built (a : ExampleArgs) (p : Preset) (s : Sys) (X : ExampleNet) : Prop where
  fleet : X.fleet = fleetOf a.prec (places a.orbits)
  ground : ∃ g, gridInstall a.latGws a.lonGws = .ok g ∧ g.length = a.lonGws * a.latGws % 2 ^ 32 ∧
    X.ground = g ++ [some (earthPosition a.source), some (earthPosition a.destination)]
  surface : ∀ x ∈ X.ground, ∃ v, x = some v ∧ v.len = 6371000
  ut : X.utNet = List.range' 0 (satCount a + X.ground.length)
  run : ∃ is, Build.run is (Build.start s) = .ok X.build
  mac : X.build.lastMac < 2 ^ 48
  dev : ∀ k : Nat, k < satCount a + X.ground.length → ∃ v, X.build.sys.dev k = v ∧ v.leo = true ∧
    v.side = (if k < satCount a then .sat else .gnd) ∧ v.node = some k ∧ v.addr = Mac48.ofNat (k + 1) ∧ v.linkUp = true ∧ v.cap = 100 ∧
    v.chan = some 0 ∧ v.txPower = p.eirp ∧ v.rxThreshold = -1000 ∧ v.rxGain = p.rxGain ∧ v.rxLoss = 0
  kind : (X.build.sys.chan 0).kind = .leo
  sat : ∀ m x, (m, x) ∈ (X.build.sys.chan 0).sat ↔ x < satCount a ∧ m = Mac48.ofNat (x + 1)
  gnd : ∀ m x, (m, x) ∈ (X.build.sys.chan 0).gnd ↔ (satCount a ≤ x ∧ x < satCount a + X.ground.length) ∧ m = Mac48.ofNat (x + 1)
  loss : X.build.lossOf 0 = some (.leo ⟨p.elev, p.atm, p.fspl, p.margin⟩)
  isl : a.islEnabled = true → X.islNet = List.range' (satCount a + X.ground.length) (satCount a) ∧
    X.build.sys.chan 1 = ⟨.isl, X.islNet, [], []⟩ ∧ X.build.lossOf 1 = some .isl ∧
    ∀ i : Nat, i < satCount a → ∃ v, X.build.sys.dev (satCount a + X.ground.length + i) = v ∧ v.leo = false ∧ v.node = some i ∧
      v.addr = Mac48.ofNat (satCount a + X.ground.length + i + 1) ∧ v.linkUp = true ∧ v.cap = 100 ∧ v.chan = some 1 ∧ v.txPower = 1 ∧
      v.rxThreshold = -1000
  noIsl : a.islEnabled = false → X.islNet = []
  next : X.build.nextDev = satCount a + X.ground.length + X.islNet.length

theorem example_built (junk : ℝ) {a : ExampleArgs} {p : Preset} (hp : p ∈ presets) (hn : a.constellation = p.name)
    (ho : ∀ o ∈ a.orbits, Installable o) (hm : 2 * satCount a + a.lonGws * a.latGws % 2 ^ 32 + 2 < 2 ^ 48) (s : Sys) :
    ∃ X, exampleMain junk a s = .ok X ∧ Built a p s X := by
  obtain ⟨g, hg, hgl, hgs⟩ := gridInstall_total a.latGws a.lonGws
  have hF : fleetOrbits junk a.prec Fleet.empty a.orbits = .ok (fleetOf a.prec (places a.orbits)) := by
    have := fleetOrbits_eq junk a.prec ho []
    rw [List.nil_append] at this
    rw [← this]
    congr 1
    simp [fleetOf, Fleet.empty]
  have hN : (fleetOf a.prec (places a.orbits)).mobs.length = satCount a := by simp [fleetOf, satCount]
  obtain ⟨r, hr, he⟩ := setConstellation_of_mem hp LeoChannelHelper.create
  obtain ⟨h, e⟩ := setConst_total (h := LeoChannelHelper.create) rfl rfl p.eirp p.elev p.fspl p.atm p.margin p.rxGain 0 r
  have hside := sided_const sided_create e
  obtain ⟨kg, ks, hl, _, _, hq1, hq2⟩ := setConst_ok e
  generalize hgr : g ++ (gndInstallPair a.source a.destination).map some = ground
  have hgr' : ground = g ++ [some (earthPosition a.source), some (earthPosition a.destination)] := by rw [← hgr]; rfl
  have hG : ground.length = a.lonGws * a.latGws % 2 ^ 32 + 2 := by rw [hgr']; simp [hgl]
  generalize hNv : satCount a = N at *
  generalize hGv : ground.length = G at *
  obtain ⟨b, e1, hi⟩ := leo_install_eq (h := h) (sats := List.range N) (gnds := List.range' N G) (b := Build.start s)
    hside.sat.1 hside.gnd.1 (by simp [Build.start]; omega)
  simp only [List.length_append, List.length_range, List.length_range'] at e1
  have hbl : b.lastMac = N + G := by rw [hi.lastMac]; simp [Build.start]
  have hbn : b.nextDev = N + G := by rw [hi.nextDev]; simp [Build.start]
  have hbc : b.nextChan = 1 := by rw [hi.nextChan]; rfl
  have hnode : ∀ k : Nat, k < N + G → (List.range N ++ List.range' N G)[k]? = some k := by
    intro k hk
    by_cases h : k < N
    · rw [List.getElem?_append_left (by simpa using h)]; simp [h]
    · rw [List.getElem?_append_right (by simpa using h)]
      simp only [List.length_range]
      rw [List.getElem?_range' (by omega)]
      congr 1
      omega
  have hcap : ∀ q : QueueFactory, q = ⟨"ns3::DropTailQueue<Packet>", []⟩ → q.create.cap = 100 := by rintro q rfl; rfl
  have hdev : ∀ k : Nat, k < N + G → ∃ v, b.sys.dev k = v ∧ v.leo = true ∧
      v.side = (if k < N then .sat else .gnd) ∧ v.node = some k ∧ v.addr = Mac48.ofNat (k + 1) ∧ v.linkUp = true ∧ v.cap = 100 ∧
      v.chan = some 0 ∧ v.txPower = p.eirp ∧ v.rxThreshold = -1000 ∧ v.rxGain = p.rxGain ∧ v.rxLoss = 0 := by
    intro k hk
    have hv := (hi.new k k (hnode k hk)).1
    have e0 : (Build.start s).nextDev + k = k := Nat.zero_add k
    have e2 : (Build.start s).lastMac + k + 1 = k + 1 := by rw [show (Build.start s).lastMac = 0 from rfl, Nat.zero_add]
    rw [e0, e2] at hv
    refine ⟨_, hv, ?_⟩
    have key : ∀ (f f0 : DevFactory) (q : QueueFactory) (sd : Side), Preconfigured p.eirp p.rxGain 0 r f0 f → Unset f0 .rxThreshold →
        f.leo = true → LastIs f (.deviceType sd) → q = ⟨"ns3::DropTailQueue<Packet>", []⟩ →
        ∀ v, v = installed f q k (Mac48.ofNat (k + 1)) (Build.start s).nextChan k → v.leo = true ∧
          v.side = sd ∧ v.node = some k ∧ v.addr = Mac48.ofNat (k + 1) ∧ v.linkUp = true ∧ v.cap = 100 ∧
          v.chan = some 0 ∧ v.txPower = p.eirp ∧ v.rxThreshold = -1000 ∧ v.rxGain = p.rxGain ∧ v.rxLoss = 0 := by
      rintro f f0 q sd hf hu hleo hs hq v rfl
      have := Unset.create (a := .rxThreshold (-1000)) (hf.unset _ hu (by decide)) rfl
      exact ⟨(create_fixed f).1.trans hleo, hs.create, rfl, rfl, rfl, hcap q hq, rfl, hf.txPower.create, this, hf.rxGain.create,
        hf.rxLoss.create⟩
    simp only [List.length_range]
    by_cases hlt : k < N
    · simp only [if_pos hlt]
      exact key _ _ _ _ ks (by simp [Unset, LeoChannelHelper.create, DevAttr.key]) hside.sat.1 hside.sat.2 hq2 _ rfl
    · simp only [if_neg hlt]
      exact key _ _ _ _ kg (by simp [Unset, LeoChannelHelper.create, DevAttr.key]) hside.gnd.1 hside.gnd.2 hq1 _ rfl
  have hidx := hi.index hside.sat.2.create hside.gnd.2.create
  simp only [List.length_range, List.length_range'] at hidx
  have hsatI : ∀ m x, (m, x) ∈ (b.sys.chan 0).sat ↔ x < N ∧ m = Mac48.ofNat (x + 1) := by
    intro m x
    rw [show b.sys.chan 0 = b.sys.chan (Build.start s).nextChan from rfl, hidx.1, mem_newEntries]
    simp only [Build.start, Nat.zero_add]
    constructor
    · rintro ⟨i, h1, h2, rfl⟩; exact ⟨h1, h2⟩
    · rintro ⟨h1, h2⟩; exact ⟨x, h1, h2, rfl⟩
  have hgndI : ∀ m x, (m, x) ∈ (b.sys.chan 0).gnd ↔ (N ≤ x ∧ x < N + G) ∧ m = Mac48.ofNat (x + 1) := by
    intro m x
    rw [show b.sys.chan 0 = b.sys.chan (Build.start s).nextChan from rfl, hidx.2, mem_newEntries]
    simp only [Build.start, Nat.zero_add]
    constructor
    · rintro ⟨i, h1, h2, rfl⟩; exact ⟨⟨Nat.le_add_right _ _, Nat.add_lt_add_left h1 _⟩, h2⟩
    · rintro ⟨⟨h1, h3⟩, h2⟩
      obtain ⟨i, rfl⟩ := Nat.exists_eq_add_of_le h1
      exact ⟨i, Nat.lt_of_add_lt_add_left h3, h2, rfl⟩
  have hsurf : ∀ x ∈ ground, ∃ v, x = some v ∧ v.len = 6371000 := by
    intro x hx
    rw [hgr'] at hx
    rcases List.mem_append.mp hx with hx | hx
    · exact hgs x hx
    · simp only [List.mem_cons, List.not_mem_nil, or_false] at hx
      rcases hx with rfl | rfl
      · exact ⟨_, rfl, C43_on_surface_partial _⟩
      · exact ⟨_, rfl, C43_on_surface_partial _⟩
  have hloss : b.lossOf 0 = some (.leo ⟨p.elev, p.atm, p.fspl, p.margin⟩) := by rw [← hl]; exact hi.loss
  have hleo : LeoChannelHelper.create.setConstellation a.constellation = .ok h := by rw [hn]; exact he.trans e
  have hmain : exampleMain junk a s = (if a.islEnabled then
      IslHelper.create.install (List.range N) b >>= fun isl => .ok ⟨fleetOf a.prec (places a.orbits), ground, isl.1, List.range' 0 (N + G), isl.2⟩
      else .ok ⟨fleetOf a.prec (places a.orbits), ground, b, List.range' 0 (N + G), []⟩) := by
    unfold exampleMain
    simp only [hF, hg, Outcome.ok_bind, hgr, hN, hGv, hleo, e1]
    rfl
  rw [hmain]
  cases hisl : a.islEnabled with
  | false =>
    refine ⟨_, by simp only [Bool.false_eq_true, if_false]; rfl, ?_⟩
    refine { fleet := rfl, ground := ⟨g, hg, hgl, hgr'⟩, surface := hsurf, ut := ?_, run := ?_, mac := ?_, dev := ?_, kind := hi.kind, sat := ?_, gnd := ?_, loss := hloss, isl := fun h => ?_, noIsl := fun _ => rfl, next := by simp only [hNv, hGv, hbn, List.length_nil]; rfl }
    · rw [hNv, hGv]
    · exact ⟨[.leo h (List.range N) (List.range' N G)], by simp only [Build.run, e1, Outcome.ok_bind]⟩
    · rw [hbl]; omega
    · rw [hNv, hGv]; exact hdev
    · rw [hNv]; exact hsatI
    · rw [hNv, hGv]; exact hgndI
    · rw [hisl] at h; cases h
  | true =>
    obtain ⟨b', e2, hi'⟩ := isl_install_eq (h := IslHelper.create) (nodes := List.range N) (b := b) (by rw [hbl, List.length_range]; omega)
    simp only [List.length_range, hbn] at e2
    refine ⟨_, by simp only [if_true, e2, Outcome.ok_bind]; rfl, ?_⟩
    have hold : ∀ k : Nat, k < N + G → b'.sys.dev k = b.sys.dev k := fun k hk => (hi'.old k (Or.inl (by rw [hbn]; exact hk))).1
    have hch : b'.sys.chan 0 = b.sys.chan 0 := hi'.otherChan 0 (by rw [hbc]; decide)
    refine { fleet := rfl, ground := ⟨g, hg, hgl, hgr'⟩, surface := hsurf, ut := ?_, run := ?_, mac := ?_, dev := ?_, kind := ?_, sat := ?_, gnd := ?_, loss := ?_, isl := fun _ => ⟨?_, ?_, ?_, ?_⟩, noIsl := fun h => ?_, next := by simp only [hNv, hGv, hi'.nextDev, hbn, List.length_range, List.length_range'] }
    · rw [hNv, hGv]
    · exact ⟨[.leo h (List.range N) (List.range' N G), .isl IslHelper.create (List.range N)], by simp only [Build.run, e1, e2, Outcome.ok_bind]⟩
    · simp only [hi'.lastMac, hbl, List.length_range]; omega
    · rw [hNv, hGv]
      intro k hk
      simp only [hold k hk]
      exact hdev k hk
    · simp only [hch]; exact hi.kind
    · rw [hNv]; simp only [hch]; exact hsatI
    · rw [hNv, hGv]; simp only [hch]; exact hgndI
    · simp only [(hi'.otherModels 0 (by rw [hbc]; decide)).1]; exact hloss
    · rw [hNv, hGv]
    · have := hi'.chan
      rw [hbc, hbn, List.length_range] at this
      exact this
    · have := hi'.loss
      rw [hbc] at this
      exact this
    · rw [hNv, hGv]
      intro i hi2
      have hv := (hi'.new i i (by simp [hi2])).1
      rw [hbn, hbl, hbc] at hv
      exact ⟨_, hv, rfl, rfl, rfl, rfl, rfl, rfl, rfl, rfl⟩
    · rw [hisl] at h; cases h

end Verif
