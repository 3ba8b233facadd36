import Verif.Model.BulkTrace
import Verif.Props.TraceFile
import Verif.Props.Example
import Verif.Lemmas.Causal
import Verif.Props.Isolation
import Verif.Props.Queueing
import Verif.Props.Timing
import Verif.Props.Trace
/-! # C124: the trace files of the bulk-send program -/

namespace Verif
open Spec

/-- The file in which the frames of ground/space device `k` are captured. -/
def captureFile (k : Nat) : FileName := "tcp-bulk-send-".toList ++ showNat k ++ "-0.pcap".toList

/-- `all` lists every device of the network once. -/
def AllDevices (b : Build) (all : List DevId) : Prop := all.Nodup ∧ ∀ d : Nat, d ∈ all ↔ d < b.nextDev

/-- The installations of the example programs, and the interface indices they give. -/
theorem example_installs {junk : ℝ} {a : ExampleArgs} {p : Preset} (hp : p ∈ presets) (hn : a.constellation = p.name)
    (ho : ∀ o ∈ a.orbits, Installable o) (hm : 2 * satCount a + a.lonGws * a.latGws % 2 ^ 32 + 2 < 2 ^ 48) {s : Sys} {X : ExampleNet}
    (h : exampleMain junk a s = .ok X) :
    (∀ k : Nat, k < satCount a + X.ground.length → X.build.ifIndex k = 0) ∧
    X.build.nextChan = (if a.islEnabled then 2 else 1) ∧
    ∃ is, (∀ i ∈ is, leoDevices i) ∧ Build.run is (Build.start s) = .ok X.build := by
  have B := built_of hp hn ho hm h
  obtain ⟨g0, hg0, hgl0, hX⟩ := B.ground
  have hG : X.ground.length = a.lonGws * a.latGws % 2 ^ 32 + 2 := by rw [hX]; simp [hgl0]
  unfold exampleMain at h
  obtain ⟨F, hF, h⟩ := Outcome.bind_eq_ok.mp h
  obtain ⟨g, hg, h⟩ := Outcome.bind_eq_ok.mp h
  obtain ⟨u, hu, h⟩ := Outcome.bind_eq_ok.mp h
  obtain ⟨r, hr, he⟩ := setConstellation_of_mem hp LeoChannelHelper.create
  rw [hn, he] at hu
  have hside := sided_const sided_create hu
  obtain ⟨ut, e1, h⟩ := Outcome.bind_eq_ok.mp h
  have hF' : F.mobs.length = satCount a := by
    have : X.fleet = F := by
      split at h
      · obtain ⟨isl, _, h⟩ := Outcome.bind_eq_ok.mp h
        injection h with h; rw [← h]
      · injection h with h; rw [← h]
    rw [← this, B.fleet]
    simp [fleetOf, satCount]
  have hgr : g ++ (gndInstallPair a.source a.destination).map some = X.ground := by
    split at h
    · obtain ⟨isl, _, h⟩ := Outcome.bind_eq_ok.mp h
      injection h with h; rw [← h]
    · injection h with h; rw [← h]
  rw [hgr, hF'] at e1
  generalize hNv : satCount a = N at *
  generalize hGv : X.ground.length = G at *
  obtain ⟨b, e2, hi⟩ := leo_install_eq (h := u) (sats := List.range N) (gnds := List.range' N G) (b := Build.start s)
    hside.sat.1 hside.gnd.1 (by simp [Build.start]; omega)
  rw [e2] at e1
  injection e1 with e1
  have hb : ut.1 = b := by rw [← e1]
  have hnode : ∀ k : Nat, k < N + G → (List.range N ++ List.range' N G)[k]? = some k := by
    intro k hk
    by_cases h : k < N
    · rw [List.getElem?_append_left (by simpa using h)]; simp [h]
    · rw [List.getElem?_append_right (by simpa using h)]
      simp only [List.length_range]
      rw [List.getElem?_range' (by omega)]
      congr 1
      omega
  have hnd : (List.range N ++ List.range' N G).Nodup := by
    rw [List.range_eq_range', show List.range' N G = List.range' (0 + 1 * N) G by simp, List.range'_append]
    exact List.nodup_range'
  have hidx : ∀ k : Nat, k < N + G → b.ifIndex k = 0 := by
    intro k hk
    have hv := (hi.new k k (hnode k hk)).2.1
    rw [show (Build.start s).nextDev + k = k from Nat.zero_add k] at hv
    rw [hv]
    have hc : ((List.range N ++ List.range' N G).take k).count k = 0 := by
      rw [List.count_eq_zero]
      intro hmem
      obtain ⟨i, hi1, hi2⟩ := List.mem_iff_getElem.mp hmem
      rw [List.length_take] at hi1
      rw [List.getElem_take] at hi2
      have hk' := hnode k hk
      have := (List.getElem?_eq_some_iff.mp hk')
      obtain ⟨hk1, hk2⟩ := this
      have := (List.Nodup.getElem_inj_iff hnd).mp (hi2.trans hk2.symm)
      omega
    rw [hc]
    rfl
  rw [hb] at h
  have hbn : b.nextDev = N + G := by rw [hi.nextDev]; simp [Build.start]
  by_cases hisl : a.islEnabled = true
  · rw [if_pos hisl] at h
    obtain ⟨isl, e3, h⟩ := Outcome.bind_eq_ok.mp h
    have hXb : X.build = isl.1 := by injection h with h; rw [← h]
    rw [hF'] at e3
    have hbl : b.lastMac = N + G := by rw [hi.lastMac]; simp [Build.start]
    obtain ⟨b', e4, hi'⟩ := isl_install_eq (h := IslHelper.create) (nodes := List.range N) (b := b) (by rw [hbl, List.length_range]; omega)
    rw [e4] at e3
    injection e3 with e3
    have hb' : isl.1 = b' := by rw [← e3]
    rw [hXb, hb']
    refine ⟨fun k hk => ?_, by rw [if_pos hisl, hi'.nextChan, hi.nextChan]; rfl, [.leo u (List.range N) (List.range' N G), .isl IslHelper.create (List.range N)], ?_, ?_⟩
    · rw [(hi'.old k (Or.inl (by rw [hbn]; exact hk))).2.1]
      exact hidx k hk
    · intro i hi
      simp only [List.mem_cons, List.not_mem_nil, or_false] at hi
      rcases hi with rfl | rfl
      · exact ⟨hside.sat.1, hside.gnd.1⟩
      · trivial
    · simp only [Build.run, e2, e4, Outcome.ok_bind]
  · rw [if_neg hisl] at h
    have hXb : X.build = b := by injection h with h; rw [← h]
    rw [hXb]
    refine ⟨hidx, by rw [if_neg hisl, hi.nextChan]; rfl, [.leo u (List.range N) (List.range' N G)], ?_, ?_⟩
    · intro i hi
      simp only [List.mem_cons, List.not_mem_nil, or_false] at hi
      subst hi
      exact ⟨hside.sat.1, hside.gnd.1⟩
    · simp only [Build.run, e2, Outcome.ok_bind]

theorem attached_queue {E : Env} : ∀ {ops : List Op} {s s' : Sys}, (∀ op ∈ ops, ∃ d c, op = .attach d c) → exec E s ops = .ok s' →
    ∀ x, (s'.dev x).queue = (s.dev x).queue ∧ (s'.dev x).busy = (s.dev x).busy
  | [], s, s', _, hx, x => by injection hx with hx; rw [hx]; exact ⟨rfl, rfl⟩
  | op :: ops, s, s', hat, hx, x => by
    obtain ⟨d, c, rfl⟩ := hat op (by simp)
    simp only [exec] at hx
    obtain ⟨s1, h1, hx⟩ := Outcome.bind_eq_ok.mp hx
    obtain ⟨g, t, _, rfl⟩ := attach_ok h1
    obtain ⟨r1, r2⟩ := attached_queue (fun op h => hat op (by simp [h])) hx x
    rw [r1, r2]
    simp only
    split
    · rename_i e; rw [e]; exact ⟨rfl, rfl⟩
    · exact ⟨rfl, rfl⟩

theorem execT_of_exec {E : Env} : ∀ (ops : List Op) {h : TSys} {s : Sys}, exec E h.sys ops = .ok s →
    ∃ h', execT E h (ops.map .net) = .ok h' ∧ h'.sys = s
  | [], h, s, hx => ⟨h, rfl, by injection hx⟩
  | op :: ops, h, s, hx => by
    simp only [exec] at hx
    obtain ⟨s1, h1, hx⟩ := Outcome.bind_eq_ok.mp hx
    simp only [List.map_cons, execT, TOp.step, stepT, h1, Outcome.ok_bind]
    exact execT_of_exec ops (h := { h with sys := s1, pcap := _, ascii := _, streams := _ }) hx

theorem traced_run {E : Env} {ops : List Op} {h1 : TSys} {s : Sys} {P : TSys → Prop} (hs : exec E h1.sys ops = .ok s)
    (k : ∀ h2, execT E h1 (ops.map .net) = .ok h2 → h2.sys = s → P h2) : ∃ h2, execT E h1 (ops.map .net) = .ok h2 ∧ P h2 := by
  obtain ⟨h2, hx, e⟩ := execT_of_exec ops hs
  exact ⟨h2, hx, k h2 hx e⟩

theorem streams_of {hooks : List Tap} {k : Nat} {P : Time × Entry → Prop}
    (hP : ∀ g ∈ hooks, ∀ t l, P (t, ⟨g.node, g.ifIndex, l⟩)) (L : List (Time × DevId × Line)) :
    ∀ e ∈ L.flatMap (streamRecords hooks k), P e := by
  intro e he
  obtain ⟨x, _, hx⟩ := List.mem_flatMap.mp he
  unfold streamRecords at hx
  obtain ⟨g, hg, hx⟩ := List.mem_filterMap.mp hx
  split at hx
  · injection hx with hx
    rw [← hx]
    exact hP g hg _ _
  · cases hx

theorem captureFile_eq (k : Nat) : fileName bulkPrefix k 0 ".pcap".toList = captureFile k := by
  have h0 : showNat 0 = ['0'] := by unfold showNat; decide
  unfold fileName captureFile bulkPrefix
  rw [h0, show "tcp-bulk-send-".toList = "tcp-bulk-send".toList ++ ['-'] by decide,
    show "-0.pcap".toList = ['-'] ++ ['0'] ++ ".pcap".toList by decide]
  simp only [List.append_assoc]

/-- **C124**: with `--pcap` the bulk-send program sets up its traces, which leaves the network as it is and makes no traffic
fail.  However the network runs then: the capture of every ground/space device holds exactly the frames that passed it, there is no
other capture, in particular none of an inter-satellite device, and no frames but those of ground/space devices are in
one; the stream holds for every ground/space device a faithful trace, told by its context, and nothing else. -/
theorem C124_traces {junk : ℝ} {a : ExampleArgs} {p : Preset} (hp : p ∈ presets) (hn : a.constellation = p.name)
    (ho : ∀ o ∈ a.orbits, Installable o) (hm : 2 * (places a.orbits).length + a.lonGws * a.latGws % 2 ^ 32 + 2 < 2 ^ 48) {s : Sys}
    (h0 : Initial s) {X : ExampleNet} (h : exampleMain junk a s = .ok X) {all : List DevId} (hall : AllDevices X.build all) :
    ∃ h1, bulkTraces true all X.build = .ok h1 ∧ h1.sys = X.build.sys ∧
      ∀ (E : Env) (ops : List Op), (∀ op ∈ ops, Traffic op) → ∃ h2, execT E h1 (ops.map .net) = .ok h2 ∧
        exec E X.build.sys ops = .ok h2.sys ∧
        (∀ k : Nat, k < (places a.orbits).length + X.ground.length →
          content h2.pcap (captureFile k) = some (captured k (newLog X.build.sys h2.sys))) ∧
        (∀ name, content h2.pcap name ≠ none → ∃ k : Nat, k < (places a.orbits).length + X.ground.length ∧ name = captureFile k) ∧
        (∀ k : Nat, k < (places a.orbits).length + X.ground.length →
          Faithful k [] (h2.sys.dev k).queue (newLog X.build.sys h2.sys) (ofContext k 0 (h2.streams 0))) ∧
        (∀ e ∈ h2.streams 0, e.2.node < (places a.orbits).length + X.ground.length ∧ e.2.ifIndex = 0) ∧
        h2.ascii = [] := by
  have hm' : 2 * satCount a + a.lonGws * a.latGws % 2 ^ 32 + 2 < 2 ^ 48 := by unfold satCount; exact hm
  have B := built_of hp hn ho hm' h
  obtain ⟨hidx, _, is, hl, hr⟩ := example_installs hp hn ho hm' h
  obtain ⟨hnd, hmem⟩ := hall
  obtain ⟨hnode, hdist⟩ := built_devices h0 hl hr B.mac
  obtain ⟨s0, aops, w⟩ := born_run (born_start h0) hr
  have hbase : (places a.orbits).length = satCount a := rfl
  simp only [hbase]
  have hlt : ∀ k : Nat, k < satCount a + X.ground.length → k ∈ all := by
    intro k hk
    rw [hmem, B.next]
    omega
  have hin : ∀ d ∈ all, @LT.lt Nat _ d X.build.nextDev := fun d hd => (hmem d).mp hd
  have hleo : ∀ k : Nat, k < satCount a + X.ground.length → (X.build.sys.dev k).leo = true ∧ (X.build.sys.dev k).node = some k := by
    intro k hk
    obtain ⟨v, e, h1, _, h2, _⟩ := B.dev k hk
    rw [e]
    exact ⟨h1, h2⟩
  have hno : ∀ d : Nat, d ∈ all → 0 < times .leoChannel (X.build.sys.dev d) → d < satCount a + X.ground.length := by
    intro d hd ht
    by_contra hge
    have hd' := hin d hd
    rw [B.next] at hd'
    cases hisl : a.islEnabled with
    | false =>
      rw [B.noIsl hisl] at hd'
      exact hge (by simpa using hd')
    | true =>
      obtain ⟨h1, _, _, h2⟩ := B.isl hisl
      rw [h1, List.length_range'] at hd'
      obtain ⟨v, e, h3, _⟩ := h2 (d - (satCount a + X.ground.length)) (by omega)
      rw [show satCount a + X.ground.length + (d - (satCount a + X.ground.length)) = d by omega] at e
      rw [e] at ht
      simp only [times, h3] at ht
      exact absurd ht (by decide)
  have hone : ∀ k : Nat, k < satCount a + X.ground.length → times .leoChannel (X.build.sys.dev k) = 1 := by
    intro k hk
    simp only [times, (hleo k hk).1, if_true]
  have hname : ∀ k : Nat, k < satCount a + X.ground.length → fileOf (untraced X.build) bulkPrefix k false ".pcap" = captureFile k := by
    intro k hk
    unfold fileOf
    simp only [Bool.false_eq_true, if_false]
    show fileName bulkPrefix ((X.build.sys.dev k).node.getD 0) (X.build.ifIndex k) _ = _
    rw [(hleo k hk).2, hidx k hk]
    exact captureFile_eq k
  have e1 := all_stream (t := .leoChannel) (k := 0) (pre := []) (h0 := untraced X.build) all (untraced X.build) rfl rfl
    fun d hd => (hnode d (hin d hd)).1
  have e2 := all_pcap (t := .leoChannel) (pre := bulkPrefix) (pr := false) (by decide) (h0 := untraced X.build) all
    { untraced X.build with hooks := (untraced X.build).hooks ++ (all.flatMap fun d =>
      List.replicate (times .leoChannel ((untraced X.build).sys.dev d)) ⟨0, ((untraced X.build).sys.dev d).node.getD 0, (untraced X.build).ifIndex d, d⟩) }
    rfl rfl fun d hd => (hnode d (hin d hd)).1
  have e3 : bulkTraces true all X.build = _ := Eq.trans (by
    unfold bulkTraces
    simp only [if_true]
    change (Tracer.leoChannel.asciiAll (some 0) [] all (untraced X.build) >>= _) = _
    rw [e1, Outcome.ok_bind]) e2
  refine ⟨_, e3, rfl, fun E ops ht => ?_⟩
  obtain ⟨⟨s', hs'⟩, _⟩ := C91_never_fails hp hn ho hm h0 h (E := E) ht
  refine traced_run (s := s') (by exact hs') fun h2 hx hsys => ⟨by rw [hsys]; exact hs', ?_⟩
  have hnames := (net_hooks ops hx).2.1
  have hascii := (net_hooks ops hx).2.2
  obtain ⟨_, _, l, L, g⟩ := grows_exec _ (by exact arises_inv ⟨s0, aops, w.init, w.runs E⟩) hx
  obtain ⟨new, hw⟩ := g.pcap
  have hfile : ∀ a ∈ all, ∀ c ∈ all, fileOf (untraced X.build) bulkPrefix a false ".pcap" = fileOf (untraced X.build) bulkPrefix c false ".pcap" → a = c :=
    fun a ha c hc he => built_file h0 hl hr B.mac (hin a ha) (hin c hc) he
  obtain ⟨hnew, hn1, hst⟩ := g.hooks
  rw [(net_hooks ops hx).1] at hn1
  have hnil : hnew = [] := by
    have := congrArg List.length hn1
    simp only [List.length_append] at this
    exact List.length_eq_zero_iff.mp (by omega)
  have hst := hst hnil 0
  simp only [untraced, List.nil_append] at hnames hw hst hascii ⊢
  refine ⟨?_, ?_, ?_, ?_, ?_⟩
  · intro k hk
    have hd := hlt k hk
    have hc := writers_of (α := Bytes) hnd (n := fun d => times .leoChannel (X.build.sys.dev d))
      (file := fun d => fileOf (untraced X.build) bulkPrefix d false ".pcap") hfile hd
    have hlog : captured k (newLog X.build.sys h2.sys) = l.filterMap (pcapRecord k) := captured_all g k
    rw [hlog, ← hname k hk]
    refine content_grow (g := fun x => l.filterMap (pcapRecord x)) (by rw [hone k hk]; decide) hc ?_ hw ?_
    · intro v hv hnm
      obtain ⟨a, ha, hv⟩ := List.mem_flatMap.mp hv
      obtain ⟨_, rfl⟩ := List.mem_replicate.mp hv
      exact ⟨hfile a ha k hd hnm, rfl⟩
    · rw [writer_names hnames]; exact hc
  · intro name hne
    by_contra hcon
    apply hne
    apply content_none
    rw [writer_names hnames, List.countP_eq_zero]
    intro v hv hnm
    obtain ⟨a, ha, hv⟩ := List.mem_flatMap.mp hv
    obtain ⟨hpos, rfl⟩ := List.mem_replicate.mp hv
    have hk := hno a ha (Nat.pos_of_ne_zero hpos)
    exact hcon ⟨a, hk, by rw [← hname a hk]; simpa [untraced] using (of_decide_eq_true hnm).symm⟩
  · intro k hk
    have hd := hlt k hk
    have hinj : ∀ a ∈ all, ∀ c ∈ all, (⟨0, (X.build.sys.dev a).node.getD 0, X.build.ifIndex a, a⟩ : Tap) =
        ⟨0, (X.build.sys.dev c).node.getD 0, X.build.ifIndex c, c⟩ → a = c := by
      intro a _ c _ he
      injection he
    have hcount := flatMap_count hnd (fun d => times .leoChannel (X.build.sys.dev d))
      (fun a => (⟨0, (X.build.sys.dev a).node.getD 0, X.build.ifIndex a, a⟩ : Tap)) hinj hd
    rw [(hleo k hk).2, hidx k hk, hone k hk] at hcount
    simp only [Option.getD_some] at hcount
    have hall := stream_all (k := 0) (n := k) (i := 0) (d := k) (hooks := all.flatMap fun d =>
      List.replicate (times .leoChannel (X.build.sys.dev d)) (⟨0, (X.build.sys.dev d).node.getD 0, X.build.ifIndex d, d⟩ : Tap)) (by
        intro t ht _ h2 h3
        obtain ⟨a, ha, ht⟩ := List.mem_flatMap.mp ht
        obtain ⟨_, rfl⟩ := List.mem_replicate.mp ht
        exact hdist a k (hin a ha) (hin k hd) (by rw [(hleo k hk).2]; exact h2) (by rw [hidx k hk]; exact h3)) L
    rw [hcount] at hall
    have hone' : ∀ r : List (Time × Line), r.flatMap (List.replicate 1) = r := by
      intro r
      induction r with
      | nil => rfl
      | cons x r ih => rw [List.flatMap_cons, ih]; rfl
    rw [hone'] at hall
    rw [hst, hall]
    have hq : (X.build.sys.dev k).queue = [] := by
      rw [attached_queue (E := E) (fun op hop => let ⟨d, c, e, _⟩ := w.att op hop; ⟨d, c, e⟩) (w.runs E) k |>.1]
      exact (w.init.idle k).2.2.1
    have := faithful_all g k
    rw [← hq]
    exact this
  · rw [hst]
    refine streams_of ?_ L
    intro t ht _ _
    obtain ⟨a, ha, ht⟩ := List.mem_flatMap.mp ht
    obtain ⟨hpos, rfl⟩ := List.mem_replicate.mp ht
    have hk := hno a ha (Nat.pos_of_ne_zero hpos)
    refine ⟨?_, hidx a hk⟩
    show (X.build.sys.dev a).node.getD 0 < _
    rw [(hleo a hk).2]
    exact hk
  · exact List.map_eq_nil_iff.mp hascii

/-! ## What the captures do not show -/

theorem mem_captured {k : DevId} {t : Time} {f : Bytes} : ∀ {l : List (Time × Ev)}, (t, f) ∈ captured k l →
    (∃ a, (t, Ev.onAir k f a) ∈ l) ∨ (t, Ev.phyRxEnd k f) ∈ l
  | [], h => by cases h
  | (u, e) :: l, h => by
    have more : (t, f) ∈ captured k l → (∃ a, (t, Ev.onAir k f a) ∈ (u, e) :: l) ∨ (t, Ev.phyRxEnd k f) ∈ (u, e) :: l := by
      intro h
      rcases mem_captured h with ⟨a, h⟩ | h
      · exact Or.inl ⟨a, List.mem_cons_of_mem _ h⟩
      · exact Or.inr (List.mem_cons_of_mem _ h)
    cases e <;> simp only [captured] at h <;> first
      | exact more h
      | (split at h
         · rename_i hc
           rcases List.mem_cons.mp h with h | h
           · injection h with h1 h2
             subst h1 h2
             first
               | (subst hc; exact Or.inl ⟨_, List.mem_cons_self⟩)
               | (obtain ⟨rfl, _⟩ := hc; exact Or.inr List.mem_cons_self)
           · exact more h
         · exact more h)

theorem caught_sender {E : Env} (G : Group) {s0 s : Sys} {ops : List Op} (h0 : Initial s0) (hk : ∀ op ∈ ops, G.Keeps op)
    (h : exec E s0 ops = .ok s) {k : DevId} {t : Time} {f : Bytes} {l : List (Time × Ev)} (hsub : ∀ e ∈ l, e ∈ s.log)
    (hm : (t, f) ∈ captured k l) : ∃ d q dest pr, Op.send d q dest pr ∈ ops ∧ G.dev d = G.dev k := by
  rcases mem_captured hm with ⟨a, ha⟩ | ha
  · obtain ⟨o1, p, pr, o2, o3, _, _, rfl, _⟩ := C09_destination_of_busy_period h0 h (hsub _ ha)
    exact ⟨k, p, a, pr, by simp, rfl⟩
  · have h1 : f ∈ phyRxEnds k s.log := by
      unfold phyRxEnds ofDev proj
      exact List.mem_filterMap.mpr ⟨_, hsub _ ha, by simp⟩
    rw [(C64_phy_rx_reports_arrivals h0 h k).1] at h1
    unfold arrived ofDev proj at h1
    obtain ⟨⟨u, e⟩, he, hx⟩ := List.mem_filterMap.mp h1
    cases e <;> first | (cases hx; done) | skip
    rename_i d g src rx
    have hdf : d = k ∧ g = f := by
      simp only at hx
      split at hx
      · cases hx
      · simp only [Option.bind_some] at hx
        split at hx
        · rename_i hd
          injection hx with hx
          exact ⟨hd, hx⟩
        · cases hx
    obtain ⟨rfl, rfl⟩ := hdf
    have hG := C65_no_frame_crosses G h0 hk h he
    have hhap : (⟨u, d, g, src⟩ : Arrival) ∈ happened s.log := List.mem_filterMap.mpr ⟨_, he, rfl⟩
    have hann := (C26_receptions_as_announced h0 h).subset (List.mem_append_left _ hhap)
    obtain ⟨⟨v, e⟩, hv, hx⟩ := List.mem_filterMap.mp hann
    cases e <;> first | (cases hx; done) | skip
    rename_i c g' src' dst' tx del
    simp only [Option.some.injEq, Arrival.mk.injEq] at hx
    obtain ⟨_, rfl, rfl, rfl⟩ := hx
    obtain ⟨o1, op, o2, s1, s2, rfl, e1, e2, e3, e4⟩ := log_entry_origin h0 h hv
    have hg1 := good_exec h0 e1
    obtain ⟨_, _, _, _, _, _, _, _, _, hbeg⟩ := txrx_step hg1.inv hg1.wired e2 e4
    have e5 : exec E s0 (o1 ++ [op]) = .ok s2 := by
      rw [exec_append, e1]
      simp only [Outcome.ok_bind, exec, e2]
    have hacc : g' ∈ accepted src' s2.log := by
      rw [((good_exec h0 e5).inv.dev src').log.acc]
      refine List.mem_append_left _ (mem_begun.mpr ⟨s2.now, ?_⟩)
      rw [log_prefix_step hg1.inv hg1.wired e2]
      exact List.mem_append_right _ hbeg
    obtain ⟨p1, q, m, pr, p2, _, hops, _⟩ := accepted_origin h0 e5 hacc
    refine ⟨src', q, .mac m, pr, ?_, hG.symm⟩
    have : Op.send src' q (.mac m) pr ∈ o1 ++ [op] := by rw [hops]; simp
    rcases List.mem_append.mp this with h | h
    · simp [h]
    · simp [List.mem_singleton.mp h]

theorem attached_links {E : Env} : ∀ {ops : List Op} {s s' : Sys}, (∀ op ∈ ops, ∃ d c, op = .attach d c) → exec E s ops = .ok s' →
    (∀ c, (s'.chan c).kind = (s.chan c).kind) ∧ (∀ d, (s'.dev d).leo = (s.dev d).leo) ∧
    (∀ c x, x ∈ (s.chan c).link → x ∈ (s'.chan c).link) ∧ ∀ d c, Op.attach d c ∈ ops → d ∈ (s'.chan c).link
  | [], s, s', _, hx => by
    injection hx with hx
    rw [hx]
    exact ⟨fun _ => rfl, fun _ => rfl, fun _ _ h => h, fun _ _ h => by cases h⟩
  | op :: ops, s, s', hat, hx => by
    obtain ⟨d, c, rfl⟩ := hat op (by simp)
    simp only [exec] at hx
    obtain ⟨s1, h1, hx⟩ := Outcome.bind_eq_ok.mp hx
    obtain ⟨g, t, _, rfl⟩ := attach_ok h1
    obtain ⟨r1, r2, r3, r4⟩ := attached_links (fun op h => hat op (by simp [h])) hx
    refine ⟨fun c' => ?_, fun x => ?_, fun c' x hm => ?_, fun x c' hm => ?_⟩
    · rw [r1]
      simp only
      split
      · rename_i e; rw [e]
      · rfl
    · rw [r2]
      simp only
      split
      · rename_i e; rw [e]
      · rfl
    · refine r3 c' x ?_
      simp only
      split
      · rename_i e; rw [e] at hm; exact List.mem_append_left _ hm
      · exact hm
    · rcases List.mem_cons.mp hm with hm | hm
      · injection hm with hm1 hm2
        subst hm1 hm2
        refine r3 _ _ ?_
        simp
      · exact r4 x c' hm

/-- The ground/space part of an example network. -/
def groundGroup (n : Nat) : Group := ⟨fun d => decide (@LT.lt Nat _ d n), fun c => decide (c = 0)⟩

theorem example_keeps {junk : ℝ} {a : ExampleArgs} {p : Preset} (hp : p ∈ presets) (hn : a.constellation = p.name)
    (ho : ∀ o ∈ a.orbits, Installable o) (hm : 2 * satCount a + a.lonGws * a.latGws % 2 ^ 32 + 2 < 2 ^ 48) {s : Sys} {X : ExampleNet}
    (h : exampleMain junk a s = .ok X) {s0 : Sys} {o : List Op} (w : Born X.build s0 o) :
    ∀ op ∈ o, (groundGroup (satCount a + X.ground.length)).Keeps op := by
  have B := built_of hp hn ho hm h
  obtain ⟨_, hch, _⟩ := example_installs hp hn ho hm h
  obtain ⟨r1, r2, _, r4⟩ := attached_links (E := Demo.env) (fun op hop => let ⟨d, c, e, _⟩ := w.att op hop; ⟨d, c, e⟩) (w.runs Demo.env)
  intro op hop
  obtain ⟨d, c, rfl, hd, hc, hleo⟩ := w.att op hop
  show decide (d < satCount a + X.ground.length) = decide (c = 0)
  rw [hch] at hc
  rw [B.next] at hd
  cases hisl : a.islEnabled with
  | false =>
    rw [hisl] at hc
    rw [B.noIsl hisl] at hd
    simp only [Bool.false_eq_true, if_false] at hc
    simp only [List.length_nil, Nat.add_zero] at hd
    rw [decide_eq_decide]
    constructor
    · intro _; omega
    · intro _; exact hd
  | true =>
    rw [hisl] at hc
    simp only [if_true] at hc
    obtain ⟨i1, i2, _, i3⟩ := B.isl hisl
    rw [decide_eq_decide]
    constructor
    · intro hlt
      by_contra hc0
      have hc1 : c = 1 := by omega
      subst hc1
      have := r4 d 1 hop
      rw [i2] at this
      simp only [i1] at this
      have := (List.mem_range'_1.mp this).1
      omega
    · rintro rfl
      by_contra hge
      have hl := hleo (by rw [← r1]; exact B.kind)
      rw [← r2] at hl
      rw [i1, List.length_range'] at hd
      obtain ⟨v, e, h3, _⟩ := i3 (d - (satCount a + X.ground.length)) (by omega)
      rw [show satCount a + X.ground.length + (d - (satCount a + X.ground.length)) = d by omega] at e
      rw [e, h3] at hl
      cases hl

/-- **C124**: as long as only inter-satellite devices send, every capture stays empty: what goes over the inter-satellite links
is in no file of the program. -/
theorem C124_inter_satellite_unseen {junk : ℝ} {a : ExampleArgs} {p : Preset} (hp : p ∈ presets) (hn : a.constellation = p.name)
    (ho : ∀ o ∈ a.orbits, Installable o) (hm : 2 * (places a.orbits).length + a.lonGws * a.latGws % 2 ^ 32 + 2 < 2 ^ 48) {s : Sys}
    (h0 : Initial s) {X : ExampleNet} (h : exampleMain junk a s = .ok X) {all : List DevId} (hall : AllDevices X.build all)
    {E : Env} {ops : List Op} (ht : ∀ op ∈ ops, Traffic op)
    (hs : ∀ (d : Nat) q dest pr, Op.send d q dest pr ∈ ops → (places a.orbits).length + X.ground.length ≤ d)
    {h1 h2 : TSys} (e1 : bulkTraces true all X.build = .ok h1) (e2 : execT E h1 (ops.map .net) = .ok h2) (name : FileName)
    {r : List (Time × Bytes)} (hc : content h2.pcap name = some r) : r = [] := by
  have hm' : 2 * satCount a + a.lonGws * a.latGws % 2 ^ 32 + 2 < 2 ^ 48 := by unfold satCount; exact hm
  obtain ⟨g1, f1, _, hrun⟩ := C124_traces hp hn ho hm h0 h hall
  rw [e1] at f1
  obtain rfl := Outcome.ok.inj f1
  obtain ⟨g2, f2, hx, hcap, hnames, _⟩ := hrun E ops ht
  rw [e2] at f2
  obtain rfl := Outcome.ok.inj f2
  obtain ⟨k, hk, rfl⟩ := hnames name (by rw [hc]; simp)
  rw [hcap k hk] at hc
  obtain rfl := Option.some.inj hc
  rw [List.eq_nil_iff_forall_not_mem]
  rintro ⟨t, f⟩ hmem
  obtain ⟨_, _, is, _, hr⟩ := example_installs hp hn ho hm' h
  obtain ⟨s0, o, w⟩ := born_run (born_start h0) hr
  obtain ⟨d, q, dest, pr, hin, hG⟩ := caught_sender (E := E) (ops := o ++ ops) (groundGroup (satCount a + X.ground.length)) w.init (by
      intro op hop
      rcases List.mem_append.mp hop with hop | hop
      · exact example_keeps hp hn ho hm' h w op hop
      · have := ht op hop
        cases op <;> first | exact trivial | exact this.elim)
    (by rw [exec_append, w.runs E]; exact hx) (l := newLog X.build.sys h2.sys) (fun e he => List.mem_of_mem_drop he) hmem
  rcases List.mem_append.mp hin with hin | hin
  · obtain ⟨_, _, e, _⟩ := w.att _ hin
    cases e
  · have h1 := hs d q dest pr hin
    have h2 : (groundGroup (satCount a + X.ground.length)).dev k = true := by
      show decide _ = true
      exact decide_eq_true hk
    rw [h2] at hG
    have h3 : @LT.lt Nat _ d (satCount a + X.ground.length) := of_decide_eq_true hG
    exact absurd h3 (Nat.not_lt.mpr h1)

/-- **C124**: `--pcap` ("Enable packet capture") does not capture all packets: in every example network with inter-satellite
links there is traffic after which an inter-satellite device has transmitted a frame and every capture is empty. -/
theorem C124_not_all_captured {junk : ℝ} {a : ExampleArgs} {p : Preset} (hp : p ∈ presets) (hn : a.constellation = p.name)
    (ho : ∀ o ∈ a.orbits, Installable o) (hm : 2 * (places a.orbits).length + a.lonGws * a.latGws % 2 ^ 32 + 2 < 2 ^ 48) {s : Sys}
    (h0 : Initial s) {X : ExampleNet} (h : exampleMain junk a s = .ok X) {all : List DevId} (hall : AllDevices X.build all)
    (hisl : a.islEnabled = true) (hsat : 0 < (places a.orbits).length) (E : Env) :
    ∃ (ops : List Op) (h1 h2 : TSys) (d : Nat), (∀ op ∈ ops, Traffic op) ∧ bulkTraces true all X.build = .ok h1 ∧
      execT E h1 (ops.map .net) = .ok h2 ∧ d ∈ X.islNet ∧ begun d h2.sys.log ≠ [] ∧
      ∀ name r, content h2.pcap name = some r → r = [] := by
  have hm' : 2 * satCount a + a.lonGws * a.latGws % 2 ^ 32 + 2 < 2 ^ 48 := by unfold satCount; exact hm
  have B := built_of hp hn ho hm' h
  have hbase : (places a.orbits).length = satCount a := rfl
  obtain ⟨_, _, is, _, hr⟩ := example_installs hp hn ho hm' h
  obtain ⟨s0, o, w⟩ := born_run (born_start h0) hr
  obtain ⟨D, hD⟩ : ∃ D : Nat, D = satCount a + X.ground.length := ⟨_, rfl⟩
  have hsend : Traffic (.send D [1] (.mac Mac48.broadcast) 0x800) := ⟨by simp, by simp⟩
  have htr : ∀ n, ∀ op ∈ [Op.send D [1] (.mac Mac48.broadcast) 0x800] ++ List.replicate n .run, Traffic op := by
    intro n op hop
    rcases List.mem_append.mp hop with hop | hop
    · rw [List.mem_singleton.mp hop]; exact hsend
    · rw [(List.mem_replicate.mp hop).2]; trivial
  obtain ⟨_, n, s', hx, _, hall'⟩ := C91_never_fails hp hn ho hm h0 h (E := E) (ops := [.send D [1] (.mac Mac48.broadcast) 0x800])
    (fun op hop => by rw [List.mem_singleton.mp hop]; exact hsend)
  obtain ⟨h1, f1, _, hrun⟩ := C124_traces hp hn ho hm h0 h hall
  obtain ⟨h2, f2, hx2, _⟩ := hrun E _ (htr n)
  rw [hx] at hx2
  obtain rfl := Outcome.ok.inj hx2
  refine ⟨_, h1, h2, D, htr n, f1, f2, ?_, ?_, fun name r hc => ?_⟩
  · rw [(B.isl hisl).1, ← hD]
    exact List.mem_range'_1.mpr ⟨Nat.le_refl _, by omega⟩
  · rw [← (hall' D).1]
    simp only [List.singleton_append, exec] at hx
    obtain ⟨s1, e1, e2⟩ := Outcome.bind_eq_ok.mp hx
    have hg1 : Good s1 := good_exec (E := E) (ops := o ++ [.send D [1] (.mac Mac48.broadcast) 0x800]) w.init (by
      rw [exec_append, w.runs E]
      simp only [Outcome.ok_bind, exec, e1])
    obtain ⟨q1, q2⟩ := attached_queue (E := E) (fun op hop => let ⟨d, c, e, _⟩ := w.att op hop; ⟨d, c, e⟩) (w.runs E) D
    have hq : (X.build.sys.dev D).queue = [] := q1.trans (w.init.idle D).2.2.1
    have hb : (X.build.sys.dev D).busy = false := q2.trans (w.init.idle D).1
    obtain ⟨v, ev, _, _, _, hup, hcap, _⟩ := (B.isl hisl).2.2.2 0 hsat
    rw [Nat.add_zero, ← hD] at ev
    have hret : ∃ f, (s1.now, Ev.sendRet D [1] (.mac Mac48.broadcast) 0x800 true f) ∈ s1.log := by
      have e1' : send E X.build.sys D [1] (.mac Mac48.broadcast) 0x800 = .ok s1 := e1
      rcases send_ok e1' with ⟨l, _⟩ | ⟨_, _, m, _, f, _, ⟨l, _⟩ | ⟨_, l, _⟩ | ⟨_, _, g, rest, s3, _, _, rfl⟩⟩
      · rw [ev, hup] at l; cases l
      · rw [hq, ev, hcap] at l; exact absurd (by decide) l
      · rw [hb] at l; cases l
      · exact ⟨f, by simp⟩
    obtain ⟨f, hf⟩ := hret
    have hmem : f ∈ accepted D h2.sys.log := by
      unfold accepted proj
      exact List.mem_filterMap.mpr ⟨_, log_sub_exec hg1 e2 hf, by simp [acceptedEv]⟩
    exact List.ne_nil_of_mem hmem
  · refine C124_inter_satellite_unseen hp hn ho hm h0 h hall (htr n) ?_ f1 f2 name hc
    intro d q dest pr hin
    rcases List.mem_append.mp hin with hin | hin
    · have := List.mem_singleton.mp hin
      injection this with h1
      rw [h1, hbase, hD]
    · exact absurd (List.mem_replicate.mp hin).2 (by simp)

/-- **C124**: without `--pcap` there are no captures and nothing is in the stream. -/
theorem C124_off {all : List DevId} {b : Build} {E : Env} {ops : List Op} {h1 h2 : TSys} (e1 : bulkTraces false all b = .ok h1)
    (e2 : execT E h1 (ops.map .net) = .ok h2) (hi : Arises E b.sys) : h2.pcap = [] ∧ h2.ascii = [] ∧ ∀ k, h2.streams k = [] := by
  have e : h1 = untraced b := (Outcome.ok.inj e1).symm
  subst e
  obtain ⟨r1, r2, r3⟩ := net_hooks ops e2
  obtain ⟨_, _, l, L, g⟩ := grows_exec _ (by exact arises_inv hi) e2
  obtain ⟨new, hn1, hst⟩ := g.hooks
  rw [r1] at hn1
  have hnew : new = [] := by simpa [untraced] using hn1
  refine ⟨by simpa [untraced] using r2, by simpa [untraced] using r3, fun k => ?_⟩
  rw [hst hnew k]
  refine List.eq_nil_iff_forall_not_mem.mpr fun e he => ?_
  obtain ⟨x, _, hx⟩ := List.mem_flatMap.mp he
  simp [untraced, streamRecords] at hx

/-- The hypotheses of the theorems: the built-in network of the program, with inter-satellite links, and its devices. -/
example : ∃ X, exampleMain 0 (defaultArgs true) Demo.sys = .ok X ∧ Initial Demo.sys ∧ AllDevices X.build (List.range X.build.nextDev) ∧
    X.build.nextDev = 1666 ∧ 0 < (places (defaultArgs true).orbits).length ∧
    2 * (places (defaultArgs true).orbits).length + (defaultArgs true).lonGws * (defaultArgs true).latGws % 2 ^ 32 + 2 < 2 ^ 48 := by
  have hp : (⟨"TelesatGateway", 105.9, 20, 189.3, 4.8, 0.36, 9857.1, 31.8⟩ : Preset) ∈ presets := by simp [presets]
  have hi := fun o ho => (default_installable true o ho).1
  have hm : 2 * (places (defaultArgs true).orbits).length + (defaultArgs true).lonGws * (defaultArgs true).latGws % 2 ^ 32 + 2 < 2 ^ 48 := by
    rw [default_count]; simp [defaultArgs]
  obtain ⟨X, hX, _, hG, _⟩ := C91_builds 0 hp rfl hi hm Demo.sys
  have B := built_of hp rfl hi (by unfold satCount; exact hm) hX
  have hc : satCount (defaultArgs true) = 632 := default_count true
  refine ⟨X, hX, Demo.sys_initial, ⟨List.nodup_range, fun d => List.mem_range⟩, ?_, by rw [default_count]; decide, hm⟩
  rw [B.next, (B.isl rfl).1, List.length_range', hc, hG]
  simp [defaultArgs]

end Verif
