import Verif.Lemmas.TraceFile2
import Verif.Props.Helper
import Verif.Props.HelperRun
import Verif.Props.Receive
import Verif.Demo
/-! # C71-C73: trace files -/

namespace Verif
open Spec

theorem arises_inv {E : Env} {s : Sys} (h : Arises E s) : Inv s := by
  obtain ⟨s0, ops, h0, h⟩ := h
  exact inv_exec (inv_initial h0) h

theorem newLog_of {s s' : Sys} {l : List (Time × Ev)} (h : s'.log = s.log ++ l) : newLog s s' = l := by
  unfold newLog
  rw [h]
  simp

theorem captured_all {h h' : TSys} {l : List (Time × Ev)} {L : List (Time × DevId × Line)} (g : Written h h' l L) (d : DevId) :
    captured d (newLog h.sys h'.sys) = l.filterMap (pcapRecord d) := by
  rw [newLog_of g.log]
  have := g.cap d []
  simpa [captured] using this

theorem faithful_all {h h' : TSys} {l : List (Time × Ev)} {L : List (Time × DevId × Line)} (g : Written h h' l L) (d : DevId) :
    Faithful d (h.sys.dev d).queue (h'.sys.dev d).queue (newLog h.sys h'.sys) (L.filterMap (asciiRecord d)) := by
  rw [newLog_of g.log]
  refine ⟨g.plus d, g.minus d, g.loss d, g.recv d, ?_⟩
  have := g.rep d []
  simpa [replay] using this

theorem countP_replicate {α : Type} (n : Nat) (name : FileName) (d : DevId) (r : List (Time × α)) :
    (List.replicate n (⟨name, d, r⟩ : Writer α)).countP (fun w => decide (w.name = name)) = n := by
  rw [List.countP_replicate]
  simp

/-- **C71**: after a helper that handles device `d` was asked for a pcap file of it, whatever the program does then — send,
attach, detach, run, enable further traces —, the file contains exactly the frames which `d` handed to its channel
or received without discarding them since the call, in order and with their times, provided no other call
names the same file.  Missing for the full claim: the argument `promiscuous` is not respected. -/
theorem C71_pcap_file_is_capture_partial {E : Env} {h h1 h2 : TSys} {t : Tracer} {pre : FileName} {d : DevId} {pr ex : Bool}
    {ops : List TOp} (ha : Arises E h.sys) (hn : (h.sys.dev d).node ≠ none) (hp : ex = true ∨ pre ≠ [])
    (ht : 0 < times t (h.sys.dev d)) (he : t.pcap pre d pr ex h = .ok h1) (hx : execT E h1 ops = .ok h2)
    (hfree : openings h.pcap (fileOf h pre d ex ".pcap") = 0)
    (honly : openings h2.pcap (fileOf h pre d ex ".pcap") = openings h1.pcap (fileOf h pre d ex ".pcap")) :
    content h2.pcap (fileOf h pre d ex ".pcap") = some (captured d (newLog h.sys h2.sys)) := by
  obtain ⟨n, hn⟩ := Option.ne_none_iff_exists'.mp hn
  rw [tracer_pcap hn hp] at he
  injection he with he
  subst he
  obtain ⟨_, _, l, L, g⟩ := grows_exec ops (by exact arises_inv ha) hx
  obtain ⟨new, hw⟩ := g.pcap
  have hlog : captured d (newLog h.sys h2.sys) = l.filterMap (pcapRecord d) := captured_all g d
  rw [hlog]
  unfold openings at honly hfree
  simp only [List.countP_append, hfree, countP_replicate, Nat.zero_add] at honly
  refine content_grow (g := fun x => l.filterMap (pcapRecord x)) ht ?_ ?_ hw honly
  · simp only [List.countP_append, hfree, countP_replicate, Nat.zero_add]
  · intro w hm hname
    rcases List.mem_append.mp hm with hm | hm
    · rw [List.countP_eq_zero] at hfree
      exact absurd (by simpa using hname) (hfree w hm)
    · rw [(List.mem_replicate.mp hm).2]; exact ⟨rfl, rfl⟩

/-- **C72**: the same for ascii files: the records tell when frames were accepted, begun, lost and handed up, and from them
the queue of the device can be followed. -/
theorem C72_ascii_file_is_faithful {E : Env} {h h1 h2 : TSys} {t : Tracer} {pre : FileName} {d : DevId} {ex : Bool}
    {ops : List TOp} (ha : Arises E h.sys) (hn : (h.sys.dev d).node ≠ none) (hq : (h.sys.dev d).hasQueue = true)
    (hp : ex = true ∨ pre ≠ []) (ht : 0 < times t (h.sys.dev d)) (he : t.ascii none pre d ex h = .ok h1)
    (hx : execT E h1 ops = .ok h2) (hfree : openings h.ascii (fileOf h pre d ex ".tr") = 0)
    (honly : openings h2.ascii (fileOf h pre d ex ".tr") = openings h1.ascii (fileOf h pre d ex ".tr")) :
    ∃ r, content h2.ascii (fileOf h pre d ex ".tr") = some r ∧
      Faithful d (h.sys.dev d).queue (h2.sys.dev d).queue (newLog h.sys h2.sys) r := by
  obtain ⟨n, hn⟩ := Option.ne_none_iff_exists'.mp hn
  rw [tracer_ascii hn hq hp] at he
  injection he with he
  subst he
  obtain ⟨_, _, l, L, g⟩ := grows_exec ops (by exact arises_inv ha) hx
  obtain ⟨new, hw⟩ := g.ascii
  refine ⟨L.filterMap (asciiRecord d), ?_, faithful_all g d⟩
  unfold openings at honly hfree
  simp only [List.countP_append, hfree, countP_replicate, Nat.zero_add] at honly
  refine content_grow (g := fun x => L.filterMap (asciiRecord x)) ht ?_ ?_ hw honly
  · simp only [List.countP_append, hfree, countP_replicate, Nat.zero_add]
  · intro w hm hname
    rcases List.mem_append.mp hm with hm | hm
    · rw [List.countP_eq_zero] at hfree
      exact absurd (by simpa using hname) (hfree w hm)
    · rw [(List.mem_replicate.mp hm).2]; exact ⟨rfl, rfl⟩

/-- **C71**, receptions: a frame that arrives is recorded, at once and once, exactly if it comes from another
device, is strong enough, is not corrupted and passes the checksum; it does not matter to whom it is addressed. -/
theorem C71_reception_recorded_iff {E : Env} {s s' : Sys} {d src : DevId} {f : Bytes} {rx : Power}
    (h : receive E s d f src rx = .ok s') (r : List (Time × Bytes)) :
    captured d (newLog s s') = r ↔
      (src ≠ d ∧ Audible (s.dev d) rx (E.corrupt d s.now (s.log.length + 1) f) ∧
        ∃ p proto sa da, decode E.fcs f = .ok (.good p proto sa da)) ∧ r = [(s.now, f)] ∨
      ¬ (src ≠ d ∧ Audible (s.dev d) rx (E.corrupt d s.now (s.log.length + 1) f) ∧
        ∃ p proto sa da, decode E.fcs f = .ok (.good p proto sa da)) ∧ r = [] := by
  have hlen : (s.emit (.recvCall d f src rx)).log.length = s.log.length + 1 := by simp [Sys.emit]
  have hdev : (s.emit (.recvCall d f src rx)).dev = s.dev := rfl
  have hnow : (s.emit (.recvCall d f src rx)).now = s.now := rfl
  have yes : ∀ {l : List (Time × Bytes)} {P : Prop}, P → l = [(s.now, f)] →
      (l = r ↔ P ∧ r = [(s.now, f)] ∨ ¬ P ∧ r = []) := by
    intro l P hP hl
    simp [hP, hl, eq_comm]
  have no : ∀ {l : List (Time × Bytes)} {P : Prop}, ¬ P → l = [] →
      (l = r ↔ P ∧ r = [(s.now, f)] ∨ ¬ P ∧ r = []) := by
    intro l P hP hl
    simp [hP, hl, eq_comm]
  unfold receive at h
  simp only [hdev, hnow, hlen, effectivePower_eq] at h
  split at h
  · rename_i hs; subst hs
    injection h with h; subst h
    exact no (by simp) (by simp [newLog, Sys.emit, captured])
  · rename_i hs
    split at h
    · rename_i hpow
      injection h with h; subst h
      refine no (fun hc => ?_) (by simp [newLog, Sys.emit, captured, Discards])
      exact absurd hc.2.1.1 (by simpa using hpow)
    · rename_i hpow
      split at h
      · rename_i hcor
        injection h with h; subst h
        refine no (fun hc => ?_) (by simp [newLog, Sys.emit, captured, Discards])
        rw [hc.2.1.2] at hcor; simp at hcor
      · rename_i hcor
        rw [Outcome.bind_eq_ok] at h
        obtain ⟨g, hr, h⟩ := h
        cases g with
        | badFcs rest =>
          injection h with h; subst h
          refine no (fun hc => ?_) (by simp [newLog, Sys.emit, captured, Discards])
          obtain ⟨p, proto, sa, da, hg⟩ := hc.2.2
          rw [hr] at hg
          injection hg with hg
          cases hg
        | good p proto sa da =>
          have hP : src ≠ d ∧ Audible (s.dev d) rx (E.corrupt d s.now (s.log.length + 1) f) ∧
              ∃ p proto sa da, decode E.fcs f = .ok (.good p proto sa da) :=
            ⟨hs, ⟨by simpa using hpow, by simpa using hcor⟩, p, proto, sa, da, hr⟩
          simp only at h
          split at h
          · injection h with h; subst h
            refine yes hP ?_
            split <;> simp [newLog, Sys.emit, captured, Discards]
          · split at h
            · injection h with h; subst h
              refine yes hP ?_
              split <;> simp [newLog, Sys.emit, captured, Discards]
            · cases h

/-- **C72**, shared streams: while the network runs, the records with the context of interface `i` of node `n`, which is
that of device `d`, are those of a faithful trace of `d`, each as often as the context was connected. -/
theorem C72_stream_repeats {E : Env} {h h' : TSys} {ops : List Op} {k i : Nat} {n : NodeId} {d : DevId}
    (ha : Arises E h.sys) (hx : execT E h (ops.map .net) = .ok h')
    (hc : ∀ g ∈ h.hooks, g.stream = k → g.node = n → g.ifIndex = i → g.dev = d) :
    ∃ r new, h'.streams k = h.streams k ++ new ∧
      ofContext n i new = r.flatMap (List.replicate (h.hooks.countP fun g => decide (g = ⟨k, n, i, d⟩))) ∧
      Faithful d (h.sys.dev d).queue (h'.sys.dev d).queue (newLog h.sys h'.sys) r := by
  obtain ⟨_, _, l, L, g⟩ := grows_exec _ (arises_inv ha) hx
  obtain ⟨new, hn, hst⟩ := g.hooks
  rw [(net_hooks ops hx).1] at hn
  have hnew : new = [] := by
    have := congrArg List.length hn
    simp only [List.length_append] at this
    exact List.length_eq_zero_iff.mp (by omega)
  exact ⟨_, _, hst hnew k, stream_all hc L, faithful_all g d⟩

/-- **C72**, one device connected to a stream of its own: the stream gets a faithful trace if the helper connects
the device once.  Missing for the full claim: `LeoHelper` connects ground and space devices three times and every record
appears three times. -/
theorem C72_stream_of_one_device_partial {E : Env} {h h1 h2 : TSys} {t : Tracer} {k : Nat} {pre : FileName} {d : DevId}
    {ex : Bool} {n : NodeId} {ops : List Op} (ha : Arises E h.sys) (hn : (h.sys.dev d).node = some n)
    (hk : ∀ g ∈ h.hooks, g.stream ≠ k) (he : t.ascii (some k) pre d ex h = .ok h1)
    (hx : execT E h1 (ops.map .net) = .ok h2) :
    ∃ r new, h2.streams k = h.streams k ++ new ∧
      ofContext n (h.ifIndex d) new = r.flatMap (List.replicate (times t (h.sys.dev d))) ∧
      Faithful d (h.sys.dev d).queue (h2.sys.dev d).queue (newLog h.sys h2.sys) r := by
  rw [tracer_stream hn] at he
  injection he with he
  have hc : ∀ g ∈ h1.hooks, g.stream = k → g.node = n → g.ifIndex = h.ifIndex d → g.dev = d := by
    subst he
    intro g hg h1 _ _
    rcases List.mem_append.mp hg with hg | hg
    · exact absurd h1 (hk g hg)
    · rw [(List.mem_replicate.mp hg).2]
  have hs : h1.sys = h.sys := by subst he; rfl
  obtain ⟨r, new, h3, h4, h5⟩ := C72_stream_repeats (by rw [hs]; exact ha) hx hc
  refine ⟨r, new, ?_, ?_, by rw [hs] at h5; exact h5⟩
  · rw [h3]; subst he; rfl
  · rw [h4]
    congr 2
    subst he
    rw [List.countP_append, List.countP_replicate]
    have : h.hooks.countP (fun g => decide (g = ⟨k, n, h.ifIndex d, d⟩)) = 0 := by
      rw [List.countP_eq_zero]
      intro g hg hgk
      have : g = ⟨k, n, h.ifIndex d, d⟩ := by simpa using hgk
      exact hk g hg (by rw [this])
    rw [this]
    simp

/-- **C73**: enabling traces has no influence on the network: what a program with traces leads to is what its network
operations alone lead to. -/
theorem C73_tracing_leaves_network_alone {E : Env} {h h' : TSys} {ops : List TOp} (ha : Arises E h.sys)
    (hx : execT E h ops = .ok h') : exec E h.sys (netOps ops) = .ok h'.sys :=
  (grows_exec ops (arises_inv ha) hx).1

/-- **C73**, names: with one prefix, files have the same name only if node and interface index are the same. -/
theorem C73_file_names_distinct {pre ext : FileName} {n m i j : Nat} :
    fileName pre n i ext = fileName pre m j ext ↔ n = m ∧ i = j :=
  ⟨fileName_inj, fun ⟨h1, h2⟩ => by rw [h1, h2]⟩

/-- In a network made by the helpers, devices are told apart by node and interface index, and have nodes and queues. -/
theorem built_devices {s : Sys} (h0 : Initial s) {is : List Install} {b : Build} (hl : ∀ i ∈ is, leoDevices i)
    (h : Build.run is (Build.start s) = .ok b) (hm : b.lastMac < 2 ^ 48) :
    (∀ d : Nat, d < b.nextDev → (b.sys.dev d).node ≠ none ∧ (b.sys.dev d).hasQueue = true) ∧
    ∀ d e : Nat, d < b.nextDev → e < b.nextDev → (b.sys.dev d).node.getD 0 = (b.sys.dev e).node.getD 0 →
      b.ifIndex d = b.ifIndex e → d = e := by
  obtain ⟨s0, ops, w⟩ := born_run (born_start h0) h
  constructor
  · intro d hd
    have := equipped_exec (w.runs Demo.env) (w.dev d hd).1
    exact ⟨this.node, this.queue⟩
  · intro d e hd he hn hi
    obtain ⟨_, n, _, h1, h2, _⟩ := (C57_all_installed s hl h hm).2 d hd
    obtain ⟨_, m, _, h3, h4, _⟩ := (C57_all_installed s hl h hm).2 e he
    rw [h1, h3] at hn
    simp only [Option.getD_some] at hn
    rw [hn, hi, h4] at h2
    injection h2 with h2
    exact h2.symm

theorem built_file {s : Sys} (h0 : Initial s) {is : List Install} {b : Build} (hl : ∀ i ∈ is, leoDevices i)
    (h : Build.run is (Build.start s) = .ok b) (hm : b.lastMac < 2 ^ 48) {pre : FileName} {ext : String} {d e : Nat}
    (hd : d < b.nextDev) (he : e < b.nextDev)
    (hf : fileOf (untraced b) pre d false ext = fileOf (untraced b) pre e false ext) : d = e := by
  unfold fileOf at hf
  simp only [Bool.false_eq_true, if_false] at hf
  obtain ⟨h1, h2⟩ := fileName_inj hf
  exact (built_devices h0 hl h hm).2 d e hd he h1 h2

theorem writers_of {α : Type} {all : List DevId} (hnd : all.Nodup) {n : DevId → Nat} {file : DevId → FileName}
    (hf : ∀ a ∈ all, ∀ b ∈ all, file a = file b → a = b) {d : DevId} (hd : d ∈ all) :
    (all.flatMap fun a => List.replicate (n a) (⟨file a, a, []⟩ : Writer α)).countP (fun w => decide (w.name = file d)) = n d := by
  have key := flatMap_count hnd n file hf hd
  rw [← key]
  have : (all.flatMap fun a => List.replicate (n a) (file a)) =
      (all.flatMap fun a => List.replicate (n a) (⟨file a, a, []⟩ : Writer α)).map (fun w => w.name) := by
    rw [List.map_flatMap]
    simp
  rw [this, List.countP_map]
  rfl

theorem writer_names {α : Type} {ws ws' : List (Writer α)}
    (h : ws'.map (fun w => (w.name, w.dev)) = ws.map (fun w => (w.name, w.dev))) (name : FileName) :
    ws'.countP (fun w => decide (w.name = name)) = ws.countP (fun w => decide (w.name = name)) := by
  have h1 : ∀ l : List (Writer α), l.countP (fun w => decide (w.name = name)) =
      (l.map (fun w => (w.name, w.dev))).countP (fun p => decide (p.1 = name)) := fun l => by
    rw [List.countP_map]; rfl
  rw [h1, h1, h]

theorem content_none {α : Type} [DecidableEq α] {ws : List (Writer α)} {name : FileName}
    (h : ws.countP (fun w => decide (w.name = name)) = 0) : content ws name = none := by
  unfold content
  rw [List.countP_eq_length_filter] at h
  rw [List.length_eq_zero_iff.mp h]

/-- **C73**, all devices: `EnablePcapAll` on a network made by the helpers runs through; then, however the network runs,
every device the helper handles has a file of its own that contains exactly its frames, and there are no
further files. -/
theorem C73_pcap_of_all_devices {E : Env} {s : Sys} (h0 : Initial s) {is : List Install} {b : Build}
    (hl : ∀ i ∈ is, leoDevices i) (h : Build.run is (Build.start s) = .ok b) (hm : b.lastMac < 2 ^ 48) {t : Tracer}
    {pre : FileName} (hp : pre ≠ []) {pr : Bool} {all : List DevId} (hnd : all.Nodup)
    (hall : ∀ d : Nat, d ∈ all → d < b.nextDev) :
    ∃ h1, t.pcapAll pre pr all (untraced b) = .ok h1 ∧ ∀ (ops : List Op) h2, execT E h1 (ops.map .net) = .ok h2 →
      (∀ d : Nat, d ∈ all → 0 < times t (b.sys.dev d) →
        content h2.pcap (fileOf (untraced b) pre d false ".pcap") = some (captured d (newLog b.sys h2.sys))) ∧
      ∀ name, content h2.pcap name ≠ none →
        ∃ d ∈ all, 0 < times t (b.sys.dev d) ∧ name = fileOf (untraced b) pre d false ".pcap" := by
  obtain ⟨s0, aops, w⟩ := born_run (born_start h0) h
  have hn := (built_devices h0 hl h hm).1
  refine ⟨_, all_pcap hp all (untraced b) rfl rfl fun d hd => (hn d (hall d hd)).1, fun ops h2 hx => ?_⟩
  have hnames := (net_hooks ops hx).2.1
  obtain ⟨_, _, l, L, g⟩ := grows_exec _ (by exact arises_inv ⟨s0, aops, w.init, w.runs E⟩) hx
  obtain ⟨new, hw⟩ := g.pcap
  have hfile : ∀ a ∈ all, ∀ c ∈ all, fileOf (untraced b) pre a false ".pcap" = fileOf (untraced b) pre c false ".pcap" → a = c :=
    fun a ha c hc he => built_file h0 hl h hm (hall a ha) (hall c hc) he
  simp only [untraced, List.nil_append] at hnames hw ⊢
  constructor
  · intro d hd ht
    have hc := writers_of (α := Bytes) hnd (n := fun d => times t (b.sys.dev d))
      (file := fun d => fileOf (untraced b) pre d false ".pcap") hfile hd
    have hlog : captured d (newLog b.sys h2.sys) = l.filterMap (pcapRecord d) := captured_all g d
    rw [hlog]
    refine content_grow (g := fun x => l.filterMap (pcapRecord x)) ht hc ?_ hw ?_
    · intro v hv hname
      obtain ⟨a, ha, hv⟩ := List.mem_flatMap.mp hv
      obtain ⟨_, rfl⟩ := List.mem_replicate.mp hv
      exact ⟨hfile a ha d hd hname, rfl⟩
    · rw [writer_names hnames]; exact hc
  · intro name hne
    by_contra hcon
    apply hne
    apply content_none
    rw [writer_names hnames, List.countP_eq_zero]
    intro v hv hname
    obtain ⟨a, ha, hv⟩ := List.mem_flatMap.mp hv
    obtain ⟨hpos, rfl⟩ := List.mem_replicate.mp hv
    exact hcon ⟨a, ha, Nat.pos_of_ne_zero hpos, by simpa [untraced] using (of_decide_eq_true hname).symm⟩

/-- **C73**, all devices, ascii files. -/
theorem C73_ascii_of_all_devices {E : Env} {s : Sys} (h0 : Initial s) {is : List Install} {b : Build}
    (hl : ∀ i ∈ is, leoDevices i) (h : Build.run is (Build.start s) = .ok b) (hm : b.lastMac < 2 ^ 48) {t : Tracer}
    {pre : FileName} (hp : pre ≠ []) {all : List DevId} (hnd : all.Nodup) (hall : ∀ d : Nat, d ∈ all → d < b.nextDev) :
    ∃ h1, t.asciiAll none pre all (untraced b) = .ok h1 ∧ ∀ (ops : List Op) h2, execT E h1 (ops.map .net) = .ok h2 →
      (∀ d : Nat, d ∈ all → 0 < times t (b.sys.dev d) →
        ∃ r, content h2.ascii (fileOf (untraced b) pre d false ".tr") = some r ∧
          Faithful d (b.sys.dev d).queue (h2.sys.dev d).queue (newLog b.sys h2.sys) r) ∧
      ∀ name, content h2.ascii name ≠ none →
        ∃ d ∈ all, 0 < times t (b.sys.dev d) ∧ name = fileOf (untraced b) pre d false ".tr" := by
  obtain ⟨s0, aops, w⟩ := born_run (born_start h0) h
  have hn := (built_devices h0 hl h hm).1
  refine ⟨_, all_ascii hp all (untraced b) rfl rfl fun d hd => hn d (hall d hd), fun ops h2 hx => ?_⟩
  have hnames := (net_hooks ops hx).2.2
  obtain ⟨_, _, l, L, g⟩ := grows_exec _ (by exact arises_inv ⟨s0, aops, w.init, w.runs E⟩) hx
  obtain ⟨new, hw⟩ := g.ascii
  have hfile : ∀ a ∈ all, ∀ c ∈ all, fileOf (untraced b) pre a false ".tr" = fileOf (untraced b) pre c false ".tr" → a = c :=
    fun a ha c hc he => built_file h0 hl h hm (hall a ha) (hall c hc) he
  simp only [untraced, List.nil_append] at hnames hw ⊢
  constructor
  · intro d hd ht
    have hc := writers_of (α := Line) hnd (n := fun d => times t (b.sys.dev d))
      (file := fun d => fileOf (untraced b) pre d false ".tr") hfile hd
    refine ⟨L.filterMap (asciiRecord d), content_grow (g := fun x => L.filterMap (asciiRecord x)) ht hc ?_ hw ?_,
      faithful_all g d⟩
    · intro v hv hname
      obtain ⟨a, ha, hv⟩ := List.mem_flatMap.mp hv
      obtain ⟨_, rfl⟩ := List.mem_replicate.mp hv
      exact ⟨hfile a ha d hd hname, rfl⟩
    · rw [writer_names hnames]; exact hc
  · intro name hne
    by_contra hcon
    apply hne
    apply content_none
    rw [writer_names hnames, List.countP_eq_zero]
    intro v hv hname
    obtain ⟨a, ha, hv⟩ := List.mem_flatMap.mp hv
    obtain ⟨hpos, rfl⟩ := List.mem_replicate.mp hv
    exact hcon ⟨a, ha, Nat.pos_of_ne_zero hpos, by simpa [untraced] using (of_decide_eq_true hname).symm⟩

/-- **C73**, all devices, shared stream: the records of a device are told apart by their context, and are those of a faithful
trace, each as often as the helper connects the device. -/
theorem C73_stream_of_all_devices {E : Env} {s : Sys} (h0 : Initial s) {is : List Install} {b : Build}
    (hl : ∀ i ∈ is, leoDevices i) (h : Build.run is (Build.start s) = .ok b) (hm : b.lastMac < 2 ^ 48) {t : Tracer}
    {k : Nat} {pre : FileName} {all : List DevId} (hnd : all.Nodup) (hall : ∀ d : Nat, d ∈ all → d < b.nextDev) :
    ∃ h1, t.asciiAll (some k) pre all (untraced b) = .ok h1 ∧ ∀ (ops : List Op) h2, execT E h1 (ops.map .net) = .ok h2 →
      ∀ d : Nat, d ∈ all → ∀ n, (b.sys.dev d).node = some n →
        ∃ r, ofContext n (b.ifIndex d) (h2.streams k) = r.flatMap (List.replicate (times t (b.sys.dev d))) ∧
          Faithful d (b.sys.dev d).queue (h2.sys.dev d).queue (newLog b.sys h2.sys) r := by
  obtain ⟨s0, aops, w⟩ := born_run (born_start h0) h
  obtain ⟨hn, hdist⟩ := built_devices h0 hl h hm
  refine ⟨_, all_stream all (untraced b) rfl rfl fun d hd => (hn d (hall d hd)).1, fun ops h2 hx d hd n hdn => ?_⟩
  have hinj : ∀ a ∈ all, ∀ c ∈ all, (⟨k, (b.sys.dev a).node.getD 0, b.ifIndex a, a⟩ : Tap) =
      ⟨k, (b.sys.dev c).node.getD 0, b.ifIndex c, c⟩ → a = c := by
    intro a _ c _ he
    injection he
  obtain ⟨r, new, h3, h4, h5⟩ := C72_stream_repeats (n := n) (i := b.ifIndex d) (d := d) (k := k)
    (by exact ⟨s0, aops, w.init, w.runs E⟩) hx (by
      intro g hg _ h2 h3
      simp only [untraced, List.nil_append] at hg
      obtain ⟨a, ha, hg⟩ := List.mem_flatMap.mp hg
      obtain ⟨_, rfl⟩ := List.mem_replicate.mp hg
      exact hdist a d (hall a ha) (hall d hd) (by rw [hdn]; exact h2) h3)
  refine ⟨r, ?_, h5⟩
  rw [h3]
  simp only [untraced, List.nil_append] at h4 ⊢
  rw [h4]
  have := flatMap_count hnd (fun d => times t (b.sys.dev d))
    (fun a => (⟨k, (b.sys.dev a).node.getD 0, b.ifIndex a, a⟩ : Tap)) hinj hd
  rw [hdn] at this
  simp only [Option.getD_some] at this
  rw [this]

/-! ## Examples and counterexamples -/

/-- The system of the examples without traces; every device is the first one of its node. -/
def demoT : TSys :=
  { sys := Demo.sys, ifIndex := fun _ => 0, pcap := [], ascii := [], hooks := [], streams := fun _ => [] }

theorem demo_arises (E : Env) : Arises E demoT.sys := ⟨_, [], Demo.sys_initial, rfl⟩

/-- A test of the final state of a history. -/
def checkT (ops : List TOp) (test : TSys → Bool) : Bool :=
  match execT Demo.env demoT ops with
  | .ok h => test h
  | .fail _ => false

theorem exists_of_checkT {ops : List TOp} {test : TSys → Bool} (h : checkT ops test = true) :
    ∃ h', execT Demo.env demoT ops = .ok h' ∧ test h' = true := by
  unfold checkT at h
  split at h
  · rename_i h' e; exact ⟨h', e, h⟩
  · cases h

/-- Devices 0 and 2 on the ground, 1 in space; 0 sends to 1, then twice to an address nobody has. -/
def demoNet : List Op :=
  [.attach 0 0, .attach 1 0, .attach 2 0, .send 0 [7] (.mac (Demo.mac 2)) 2048, .send 0 [8] (.mac (Demo.mac 9)) 2048,
    .send 0 [9] (.mac (Demo.mac 9)) 2048, .send 0 [10] (.mac (Demo.mac 2)) 2048] ++ List.replicate 8 .run

/-- The hypotheses of `C71_pcap_file_is_capture_partial` are met, and the files are not empty: device 0 put three frames on
the air and device 1 received them. -/
example : checkT (.pcap .leoChannel ['x'] 0 false false :: .pcap .leo ['x'] 1 false false :: demoNet.map .net)
    (fun h => openings h.pcap (fileOf demoT ['x'] 0 false ".pcap") == 1 &&
      openings h.pcap (fileOf demoT ['x'] 1 false ".pcap") == 3 &&
      ((content h.pcap (fileOf demoT ['x'] 0 false ".pcap")).map List.length == some 3) &&
      ((content h.pcap (fileOf demoT ['x'] 1 false ".pcap")).map List.length == some 3) &&
      decide (fileOf demoT ['x'] 1 false ".pcap" = "x-1-0.pcap".toList)) = true := by decide +kernel

/-- Those of `C72_ascii_file_is_faithful` too: accepted, begun, lost and received frames all occur. -/
example : checkT (.ascii .isl none ['x'] 0 false :: .ascii .leoChannel none ['x'] 1 false :: demoNet.map .net)
    (fun h => openings h.ascii (fileOf demoT ['x'] 0 false ".tr") == 1 &&
      ((content h.ascii (fileOf demoT ['x'] 0 false ".tr")).map fun r =>
        ((pluses r).length, (minuses r).length, (losses r).length)) == some (3, 3, 1) &&
      ((content h.ascii (fileOf demoT ['x'] 1 false ".tr")).map fun r => (receipts r).length) == some 1) = true := by
  decide +kernel

/-- Those of `C72_stream_of_one_device_partial` too. -/
example : checkT (.ascii .isl (some 4) [] 0 false :: demoNet.map .net)
    (fun h => (ofContext 0 0 (h.streams 4)).length == 7 && h.hooks.length == 1) = true := by decide +kernel

/-- Those of the theorems on networks made by the helpers. -/
example : ∃ b, Build.run [.isl IslHelper.create [1, 2], .leo LeoChannelHelper.create [1, 2] [3]] (Build.start Demo.sys) = .ok b ∧
    b.lastMac = 5 ∧ b.nextDev = 5 ∧ (b.sys.dev 2).node = some 1 ∧ times .leoChannel (b.sys.dev 0) = 0 ∧
    times .leoChannel (b.sys.dev 2) = 1 ∧ times .leo (b.sys.dev 2) = 3 ∧
    fileOf (untraced b) ['x'] 2 false ".tr" = "x-1-1.tr".toList := by
  refine ⟨_, rfl, rfl, rfl, rfl, rfl, rfl, rfl, by decide +kernel⟩

/-- **C71** fails as wished: a pcap file that was asked for without promiscuous mode contains frames that are neither from
the device nor for it. -/
theorem C71_non_promiscuous_not_respected : ¬ ∀ (E : Env) (h h1 h2 : TSys) (t : Tracer) (pre : FileName) (d : DevId)
    (ops : List Op) (r : List (Time × Bytes)), Arises E h.sys → t.pcap pre d false false h = .ok h1 →
    execT E h1 (ops.map .net) = .ok h2 → content h2.pcap (fileOf h pre d false ".pcap") = some r →
    ∀ x ∈ r, ∀ p proto sa da, decode E.fcs x.2 = .ok (.good p proto sa da) →
      sa = (h2.sys.dev d).addr ∨ ForMe da (h2.sys.dev d).addr := by
  intro hall
  have ok : checkT (.pcap .leoChannel ['x'] 1 false false ::
      [Op.attach 0 0, .attach 1 0, .send 0 [8] (.mac (Demo.mac 8)) 2048, .run, .run].map TOp.net)
      (fun h => decide (content h.pcap (fileOf demoT ['x'] 1 false ".pcap") =
        some [(64, addHeader Demo.env.fcs [8] (Demo.mac 1) (Demo.mac 8) 2048)] ∧
        (h.sys.dev 1).addr = Demo.mac 2)) = true := by decide +kernel
  obtain ⟨h2, hx, ht⟩ := exists_of_checkT ok
  simp only [decide_eq_true_eq] at ht
  simp only [execT, TOp.step] at hx
  rw [Outcome.bind_eq_ok] at hx
  obtain ⟨h1, he, hx⟩ := hx
  have := hall _ demoT h1 h2 _ _ 1 _ _ (demo_arises Demo.env) he hx ht.1 _ List.mem_cons_self [8] 2048 (Demo.mac 1) (Demo.mac 8)
    (by decide +kernel)
  rw [ht.2] at this
  revert this
  simp only [ForMe]
  decide +kernel

/-- **C72** fails as wished: with `LeoHelper` a shared stream does not contain a faithful trace of a ground or space
device; already one packet that is sent has two records of its acceptance and start too many. -/
theorem C72_leo_helper_repeats_records : ¬ ∀ (E : Env) (h h1 h2 : TSys) (t : Tracer) (k : Nat) (pre : FileName) (d : DevId)
    (n : NodeId) (ops : List Op), Arises E h.sys → h.hooks = [] → h.streams k = [] → (h.sys.dev d).node = some n →
    t.ascii (some k) pre d false h = .ok h1 → execT E h1 (ops.map .net) = .ok h2 →
    Faithful d (h.sys.dev d).queue (h2.sys.dev d).queue (newLog h.sys h2.sys) (ofContext n (h.ifIndex d) (h2.streams k)) := by
  intro hall
  have ok : checkT (.ascii .leo (some 0) [] 0 false ::
      [Op.attach 0 0, .attach 1 0, .send 0 [8] (.mac (Demo.mac 2)) 2048].map TOp.net)
      (fun h => decide ((pluses (ofContext 0 0 (h.streams 0))).length = 3 ∧
        (projT (acceptedEv 0) (newLog demoT.sys h.sys)).length = 1)) = true := by decide +kernel
  obtain ⟨h2, hx, ht⟩ := exists_of_checkT ok
  simp only [decide_eq_true_eq] at ht
  simp only [execT, TOp.step] at hx
  rw [Outcome.bind_eq_ok] at hx
  obtain ⟨h1, he, hx⟩ := hx
  have := (hall _ demoT h1 h2 _ 0 [] 0 0 _ (demo_arises Demo.env) rfl rfl rfl he hx).plus
  have := congrArg List.length this
  have e : demoT.ifIndex 0 = 0 := rfl
  rw [e, ht.1, ht.2] at this
  omega

end Verif
