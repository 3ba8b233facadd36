import Verif.Lemmas.Trace
import Verif.Lemmas.Channel
import Verif.Props.Device
/-! # C64: the trace sources tell the truth -/

namespace Verif
open Spec

theorem ofDev_append {α : Type} (d : DevId) (g : Ev → Option (DevId × α)) (l m : List (Time × Ev)) :
    ofDev d g (l ++ m) = ofDev d g l ++ ofDev d g m := by
  simp [ofDev, proj]

theorem ofDev_map {α : Type} (d : DevId) (g : Ev → Option (DevId × α)) (t : Time) (l : List Ev) :
    ofDev d g (l.map fun e => (t, e)) = l.filterMap (fun e => (g e).bind fun x => if x.1 = d then some x.2 else none) := by
  simp [ofDev, proj, List.filterMap_map, Function.comp_def]

/-- A statement that holds of the empty log, of every block and of concatenations holds of every log. -/
theorem log_induct {E : Env} {P : List (Time × Ev) → Prop} (nil : P []) (app : ∀ l m, P l → P m → P (l ++ m))
    (blk : ∀ l t, Block l → P (l.map fun e => (t, e))) {s0 s : Sys} {ops : List Op} (h0 : Initial s0)
    (h : exec E s0 ops = .ok s) : P s.log := by
  have : Inv s ∧ P s.log := by
    refine exec_induct (P := fun u => Inv u ∧ P u.log) ?_ ⟨inv_initial h0, by rw [h0.log]; exact nil⟩ h
    intro u u' op ⟨hu, hp⟩ hs
    obtain ⟨l, hl, hlog⟩ := block_step hu hs
    exact ⟨inv_step hu hs, by rw [hlog]; exact app _ _ hp (blk l _ hl)⟩
  exact this.2

theorem filterMap_plain {α : Type} {g : Ev → Option α} (hg : ∀ e, Plain e → g e = none) {l : List Ev}
    (h : ∀ e ∈ l, Plain e) : l.filterMap g = [] := by
  rw [List.filterMap_eq_nil_iff]
  exact fun e he => hg e (h e he)

theorem filterMap_tail {α : Type} {g : Ev → Option α} (hg : ∀ c f s y t del, g (.txrx c f s y t del) = none)
    {d : DevId} {f : Bytes} (hd : g (.phyTxDrop d f) = none) {l : List Ev} (h : Tail d f l) : l.filterMap g = [] := by
  obtain ⟨rs, b, hrs, rfl⟩ := h
  rw [List.filterMap_eq_nil_iff]
  intro e he
  rcases List.mem_append.mp he with he | he
  · obtain ⟨c, f, s, y, t, del, rfl⟩ := hrs e he
    exact hg ..
  · cases b
    · simp at he; subst he; exact hd
    · simp at he

/-- Effects that are left out below: no trace source of a device, except PhyTxDrop. -/
def hidden : Ev → Bool
  | .linkChange _ | .sendFromRet .. | .detachRet .. | .attachRet .. | .txrx .. | .phyTxDrop .. => true
  | _ => false

/-- The effects that are not left out. -/
def strip (l : List Ev) : List Ev := l.filter fun e => !hidden e

/-- Blocks with the hidden effects left out. -/
inductive Clean : List Ev → Prop where
  | down (d p dest proto) : Clean [.macTxDrop d p, .sendRet d p dest proto false p]
  | full (d p dest proto f) (hf : f ≠ p) : Clean [.macTx d f, .macTxDrop d f, .sendRet d p dest proto false f]
  | queued (d p dest proto f) (hf : f ≠ p) : Clean [.macTx d f, .sendRet d p dest proto true f]
  | start (d p dest proto f a) (hf : f ≠ p) :
      Clean [.macTx d f, .promiscSniffer d f, .sniffer d f, .phyTxBegin d f, .onAir d f a, .sendRet d p dest proto true f]
  | stop (d f) : Clean [.phyTxEnd d f]
  | next (d f g a) : Clean [.phyTxEnd d f, .sniffer d g, .promiscSniffer d g, .phyTxBegin d g, .onAir d g a]
  | own (d f rx) : Clean [.recvCall d f d rx, .macRxDrop d f]
  | lost (d f src rx g) (h : src ≠ d) : Clean [.recvCall d f src rx, .phyRxEnd d f, .phyRxDrop d g]
  | other (d f src rx) (h : src ≠ d) : Clean [.recvCall d f src rx, .phyRxEnd d f, .promiscSniffer d f]
  | prom (d f src rx p proto sa da ty) (h : src ≠ d) :
      Clean [.recvCall d f src rx, .phyRxEnd d f, .promiscSniffer d f, .macPromiscRx d f, .promiscCallback d p proto sa da ty]
  | up (d f src rx p proto sa) (h : src ≠ d) :
      Clean [.recvCall d f src rx, .phyRxEnd d f, .promiscSniffer d f, .macRx d f, .rxCallback d p proto sa]
  | both (d f src rx p proto sa da ty) (h : src ≠ d) :
      Clean [.recvCall d f src rx, .phyRxEnd d f, .promiscSniffer d f, .macPromiscRx d f, .promiscCallback d p proto sa da ty,
        .macRx d f, .rxCallback d p proto sa]

theorem strip_append (l m : List Ev) : strip (l ++ m) = strip l ++ strip m := List.filter_append ..

theorem strip_tail {d : DevId} {f : Bytes} {l : List Ev} (h : Tail d f l) : strip l = [] := by
  obtain ⟨rs, b, hrs, rfl⟩ := h
  unfold strip
  rw [List.filter_eq_nil_iff]
  intro e he
  rcases List.mem_append.mp he with he | he
  · obtain ⟨c, f, s, y, t, del, rfl⟩ := hrs e he
    simp [hidden]
  · cases b
    · simp at he; subst he; simp [hidden]
    · simp at he

theorem clean_block {l : List Ev} (h : Block l) : strip l = [] ∨ Clean (strip l) := by
  cases h
  case plain h =>
    left
    unfold strip
    rw [List.filter_eq_nil_iff]
    intro e he
    have := h e he
    cases e <;> first | exact this.elim | simp [hidden]
  case start hf hl =>
    right
    rw [strip_append, strip_append, strip_tail hl]
    exact .start _ _ _ _ _ _ hf
  case next hl =>
    right
    rw [strip_append, strip_tail hl]
    exact .next ..
  case good d f src rx pr up p proto sa da ty h =>
    right
    cases pr <;> cases up
    · exact .other _ _ _ _ h
    · exact .up _ _ _ _ _ _ _ h
    · exact .prom _ _ _ _ _ _ _ _ _ h
    · exact .both _ _ _ _ _ _ _ _ _ h
  case down => exact Or.inr (.down ..)
  case full h => exact Or.inr (.full _ _ _ _ _ h)
  case queued h => exact Or.inr (.queued _ _ _ _ _ h)
  case stop => exact Or.inr (.stop ..)
  case own => exact Or.inr (.own ..)
  case lost h => exact Or.inr (.lost _ _ _ _ _ h)

/-- What a log of a history says without the hidden effects. -/
def clean (log : List (Time × Ev)) : List Ev := strip (log.map Prod.snd)

theorem clean_induct {E : Env} {P : List Ev → Prop} (nil : P []) (app : ∀ l m, P l → P m → P (l ++ m))
    (blk : ∀ l, Clean l → P l) {s0 s : Sys} {ops : List Op} (h0 : Initial s0) (h : exec E s0 ops = .ok s) :
    P (clean s.log) := by
  refine log_induct (P := fun l => P (clean l)) nil ?_ ?_ h0 h
  · intro l m hl hm
    unfold clean at *
    rw [List.map_append, strip_append]
    exact app _ _ hl hm
  · intro l t hl
    have : (l.map fun e => (t, e)).map Prod.snd = l := by simp [Function.comp_def]
    unfold clean
    rw [this]
    rcases clean_block hl with h | h
    · rw [h]; exact nil
    · exact blk _ h

/-- A projection of a list of effects. -/
def pick {α : Type} (d : DevId) (g : Ev → Option (DevId × α)) (l : List Ev) : List α :=
  l.filterMap fun e => (g e).bind fun x => if x.1 = d then some x.2 else none

theorem pick_append {α : Type} (d : DevId) (g : Ev → Option (DevId × α)) (l m : List Ev) :
    pick d g (l ++ m) = pick d g l ++ pick d g m := List.filterMap_append ..

theorem pick_cons {α : Type} (d : DevId) (g : Ev → Option (DevId × α)) (e : Ev) (l : List Ev) :
    pick d g (e :: l) = ((g e).elim [] fun x => if x.1 = d then [x.2] else []) ++ pick d g l := by
  unfold pick
  rw [List.filterMap_cons]
  cases g e with
  | none => rfl
  | some x => by_cases hx : x.1 = d <;> simp [hx]

theorem pick_nil {α : Type} (d : DevId) (g : Ev → Option (DevId × α)) : pick d g [] = [] := rfl

theorem ofDev_clean {α : Type} (d : DevId) {g : Ev → Option (DevId × α)} (hg : ∀ e, hidden e = true → g e = none)
    (log : List (Time × Ev)) : ofDev d g log = pick d g (clean log) := by
  unfold ofDev proj pick clean strip
  rw [List.filterMap_filter, List.filterMap_map]
  refine List.filterMap_congr fun e _ => ?_
  simp only [Function.comp]
  cases hh : hidden e.2
  · rfl
  · rw [hg _ hh]; rfl

theorem begun_ofDev (d : DevId) (log : List (Time × Ev)) :
    begun d log = ofDev d (fun | .phyTxBegin d f => some (d, f) | _ => none) log := by
  unfold begun ofDev
  congr 1
  funext e
  cases e <;> simp [begunEv]

theorem accepted_ofDev (d : DevId) (log : List (Time × Ev)) :
    accepted d log = ofDev d (fun | .sendRet d _ _ _ true f => some (d, f) | _ => none) log := by
  unfold accepted ofDev
  congr 1
  funext e
  cases e with
  | sendRet d _ _ _ r f => cases r <;> simp [acceptedEv]
  | _ => simp [acceptedEv]

/-- All hidden effects are ignored. -/
macro "ign" : tactic => `(tactic| (intro e he; cases e <;> first | rfl | (exact absurd he (by simp [hidden]))))

theorem same {E : Env} {s0 s : Sys} {ops : List Op} (h0 : Initial s0) (h : exec E s0 ops = .ok s) (d : DevId)
    {g k : Ev → Option (DevId × Bytes)} (hg : ∀ e, hidden e = true → g e = none) (hk : ∀ e, hidden e = true → k e = none)
    (blk : ∀ l, Clean l → pick d g l = pick d k l) : ofDev d g s.log = ofDev d k s.log := by
  rw [ofDev_clean d hg, ofDev_clean d hk]
  refine clean_induct (P := fun l => pick d g l = pick d k l) rfl ?_ blk h0 h
  intro l m hl hm
  rw [pick_append, pick_append, hl, hm]

/-- **C64**, sender: the frames reported by the sniffer are those whose transmission began, and these are those handed to the
channel, in the same order. -/
theorem C64_sniffer_reports_transmissions {E : Env} {s0 s : Sys} {ops : List Op} (h0 : Initial s0)
    (h : exec E s0 ops = .ok s) (d : DevId) : sniffed d s.log = begun d s.log ∧ aired d s.log = begun d s.log := by
  rw [begun_ofDev]
  constructor
  · exact same h0 h d (by ign) (by ign) fun l hl => by cases hl <;> simp [pick_cons, pick_nil]
  · exact same h0 h d (by ign) (by ign) fun l hl => by cases hl <;> simp [pick_cons, pick_nil]

/-- **C64**, interface of the sender: MacTx reports exactly the packets that `Send` framed, MacTxDrop exactly the packets of
calls that returned false, in the order of the calls. -/
theorem C64_mac_tx_reports_sends {E : Env} {s0 s : Sys} {ops : List Op} (h0 : Initial s0)
    (h : exec E s0 ops = .ok s) (d : DevId) :
    macTxs d s.log = framed d s.log ∧ macTxDrops d s.log = refused d s.log := by
  constructor
  · refine same h0 h d (by ign) (by ign) fun l hl => ?_
    cases hl <;> simp_all [pick_cons, pick_nil]
  · exact same h0 h d (by ign) (by ign) fun l hl => by cases hl <;> simp [pick_cons, pick_nil]

/-- **C64**, receiver: PhyRxEnd reports exactly the frames that arrived from other devices, MacRxDrop exactly those that
came back to their sender, in order. -/
theorem C64_phy_rx_reports_arrivals {E : Env} {s0 s : Sys} {ops : List Op} (h0 : Initial s0)
    (h : exec E s0 ops = .ok s) (d : DevId) :
    phyRxEnds d s.log = arrived d s.log ∧ macRxDrops d s.log = returned d s.log := by
  constructor
  · refine same h0 h d (by ign) (by ign) fun l hl => ?_
    cases hl <;> simp_all [pick_cons, pick_nil]
  · refine same h0 h d (by ign) (by ign) fun l hl => ?_
    cases hl <;> simp_all [pick_cons, pick_nil]

/-- A law between the lengths of lists picked from the log. -/
theorem tally {E : Env} {s0 s : Sys} {ops : List Op} (h0 : Initial s0) (h : exec E s0 ops = .ok s) (d : DevId)
    {g g' k k' : Ev → Option (DevId × Bytes)} (hg : ∀ e, hidden e = true → g e = none)
    (hg' : ∀ e, hidden e = true → g' e = none) (hk : ∀ e, hidden e = true → k e = none)
    (hk' : ∀ e, hidden e = true → k' e = none)
    (blk : ∀ l, Clean l → (pick d g l).length + (pick d g' l).length = (pick d k l).length + (pick d k' l).length) :
    (ofDev d g s.log).length + (ofDev d g' s.log).length = (ofDev d k s.log).length + (ofDev d k' s.log).length := by
  rw [ofDev_clean d hg, ofDev_clean d hk, ofDev_clean d hg', ofDev_clean d hk']
  refine clean_induct (P := fun l => (pick d g l).length + (pick d g' l).length = (pick d k l).length + (pick d k' l).length)
    rfl ?_ blk h0 h
  intro l m hl hm
  simp only [pick_append, List.length_append]
  omega

/-- **C64**, books of the receiver: every arrived frame is shown to the promiscuous sniffer or reported as dropped by the
physical layer, which besides shows it the frames the device itself transmits. -/
theorem C64_promiscuous_sniffer_balance {E : Env} {s0 s : Sys} {ops : List Op} (h0 : Initial s0)
    (h : exec E s0 ops = .ok s) (d : DevId) :
    (promiscSniffed d s.log).length + (phyRxDrops d s.log).length = (begun d s.log).length + (arrived d s.log).length := by
  rw [begun_ofDev]
  refine tally h0 h d (by ign) (by ign) (by ign) (by ign) fun l hl => ?_
  cases hl <;> simp_all [pick_cons, pick_nil] <;> split <;> simp_all

/-- **C64**, interface of the receiver: MacRx fires once per call of the receive callback, MacPromiscRx once per call of
the promiscuous callback. -/
theorem C64_mac_rx_counts_callbacks {E : Env} {s0 s : Sys} {ops : List Op} (h0 : Initial s0)
    (h : exec E s0 ops = .ok s) (d : DevId) :
    (macRxs d s.log).length = (rxCalls d s.log).length ∧
      (macPromiscRxs d s.log).length = (promiscCalls d s.log).length := by
  have none' : (ofDev (α := Bytes) d (fun _ => none) s.log).length = 0 := by simp [ofDev, proj]
  constructor
  · have := tally (g := fun | .macRx d f => some (d, f) | _ => none) (g' := fun _ => none)
      (k := fun | .rxCallback d p _ _ => some (d, p) | _ => none) (k' := fun _ => none)
      h0 h d (by ign) (by ign) (by ign) (by ign) fun l hl => by
        cases hl <;> simp_all [pick_cons, pick_nil] <;> split <;> simp_all
    rw [none'] at this
    exact this
  · have := tally (g := fun | .macPromiscRx d f => some (d, f) | _ => none) (g' := fun _ => none)
      (k := fun | .promiscCallback d p _ _ _ _ => some (d, p) | _ => none) (k' := fun _ => none)
      h0 h d (by ign) (by ign) (by ign) (by ign) fun l hl => by
        cases hl <;> simp_all [pick_cons, pick_nil] <;> split <;> simp_all
    rw [none'] at this
    exact this

/-- **C64**, PhyTxDrop: one call or event reports `f` there exactly if it put `f` on the channel of the device, the
channel was not flooded, and none of those the frame was meant for could be reached. -/
theorem C64_phy_tx_drop_law {E : Env} {s0 s s' : Sys} {ops : List Op} {op : Op} (h0 : Initial s0)
    (h : exec E s0 ops = .ok s) (hs : step E s op = .ok s') (d : DevId) (f : Bytes) :
    f ∈ phyTxDrops d (newLog s s') ↔
      ∃ dest c, (s'.now, Ev.onAir d f dest) ∈ newLog s s' ∧ (s.dev d).chan = some c ∧
        ¬ Floods s c (s.dev d).chanSlot dest ∧
        ∀ x ∈ audience s c (s.dev d).chanSlot dest, ¬ Reachable E { s with now := s'.now } c d x := by
  have key : f ∈ phyTxDrops d (newLog s s') ↔ ∃ t, (t, Ev.phyTxDrop d f) ∈ newLog s s' := by
    unfold phyTxDrops ofDev proj
    rw [List.mem_filterMap]
    constructor
    · rintro ⟨⟨t, e⟩, he, hx⟩
      refine ⟨t, ?_⟩
      cases e <;> simp at hx
      obtain ⟨rfl, rfl⟩ := hx
      exact he
    · rintro ⟨t, ht⟩
      exact ⟨_, ht, by simp⟩
  rw [key]
  have hns := netStep_step (inv_exec (inv_initial h0) h) (wired_exec (wired_initial h0) h) hs
  have hnew : ∀ {l}, s'.log = s.log ++ l → newLog s s' = l := by
    intro l hl; unfold newLog; rw [hl, List.drop_left]
  cases hns with
  | quiet l hlog hl _ =>
    rw [hnew hlog]
    exact ⟨fun ⟨_, ht⟩ => (hl _ ht).elim, fun ⟨_, _, ht, _⟩ => (hl _ ht).elim⟩
  | recv d' f' src rx l _ _ hlog hl _ _ _ =>
    rw [hnew hlog]
    have no : ∀ e, e ∈ ((s'.now, Ev.recvCall d' f' src rx) :: l.map fun e => (s'.now, e)) →
        (∀ d f, e.2 ≠ .phyTxDrop d f) ∧ ∀ d f a, e.2 ≠ .onAir d f a := by
      intro e he
      rcases List.mem_cons.mp he with rfl | he
      · simp
      · obtain ⟨x, hx, rfl⟩ := List.mem_map.mp he
        have := hl x hx
        cases x <;> simp_all [RxEv]
    exact ⟨fun ⟨_, ht⟩ => ((no _ ht).1 _ _ rfl).elim, fun ⟨_, _, ht, _⟩ => ((no _ ht).2 _ _ _ rfl).elim⟩
  | tx d' f' dest c rs b ps l1 l2 hchan hrs hb hps hp hlog hl1 hl2 hd hc =>
    rw [hnew hlog]
    have mem : ∀ e, MuteEv e.2 = False → (e ∈ l1 ++ ([(s'.now, Ev.phyTxBegin d' f'), (s'.now, .onAir d' f' dest)] ++
        (rs.map (Recv.entry s'.now c f' d' (E.txTime (s.dev d').rate f'.length)) ++
          ((if b then [] else [(s'.now, .phyTxDrop d' f')]) ++ l2))) ↔
        e = (s'.now, Ev.phyTxBegin d' f') ∨ e = (s'.now, .onAir d' f' dest) ∨
          e ∈ rs.map (Recv.entry s'.now c f' d' (E.txTime (s.dev d').rate f'.length)) ∨
          (b = false ∧ e = (s'.now, .phyTxDrop d' f'))) := by
      intro e he
      have h1 : e ∉ l1 := fun hm => by have := hl1 e hm; rw [he] at this; exact this
      have h2 : e ∉ l2 := fun hm => by have := hl2 e hm; rw [he] at this; exact this
      cases b <;> simp [h1, h2]
    have hr : rs = [] ↔ ∀ x ∈ audience s c (s.dev d').chanSlot dest, ¬ Reachable E { s with now := s'.now } c d' x := by
      rw [hrs, List.filterMap_eq_nil_iff]
      refine forall₂_congr fun x _ => ?_
      rw [recvOf_reachDev, ← reachDev_isSome_time E _ c d' (E.txTime (s.dev d').rate f'.length) x]
      simp
    have hent : ∀ t d f, (t, Ev.phyTxDrop d f) ∉ rs.map (Recv.entry s'.now c f' d' (E.txTime (s.dev d').rate f'.length)) := by
      intro t d f hm
      obtain ⟨r, _, hr⟩ := List.mem_map.mp hm
      simp [Recv.entry] at hr
    have hent2 : ∀ t d f a, (t, Ev.onAir d f a) ∉ rs.map (Recv.entry s'.now c f' d' (E.txTime (s.dev d').rate f'.length)) := by
      intro t d f a hm
      obtain ⟨r, _, hr⟩ := List.mem_map.mp hm
      simp [Recv.entry] at hr
    have hbf : b = false ↔ rs = [] ∧ ¬ Floods s c (s.dev d').chanSlot dest := by
      rw [← Bool.not_eq_true, hb, not_or, not_not]
    constructor
    · rintro ⟨t, ht⟩
      rw [mem _ (by simp [MuteEv])] at ht
      rcases ht with ht | ht | ht | ⟨hb', ht⟩
      · simp at ht
      · simp at ht
      · exact (hent _ _ _ ht).elim
      · simp only [Prod.mk.injEq, Ev.phyTxDrop.injEq] at ht
        obtain ⟨rfl, rfl, rfl⟩ := ht
        obtain ⟨h1, h2⟩ := hbf.mp hb'
        exact ⟨dest, c, (mem _ (by simp [MuteEv])).mpr (Or.inr (Or.inl rfl)), hchan, h2, hr.mp h1⟩
    · rintro ⟨dest2, c2, ht, hch, hfl, hre⟩
      rw [mem _ (by simp [MuteEv])] at ht
      rcases ht with ht | ht | ht | ⟨hb', ht⟩
      · simp at ht
      · simp only [Prod.mk.injEq, Ev.onAir.injEq, true_and] at ht
        obtain ⟨rfl, rfl, rfl⟩ := ht
        rw [hchan] at hch
        injection hch with hch
        subst hch
        exact ⟨_, (mem _ (by simp [MuteEv])).mpr (Or.inr (Or.inr (Or.inr ⟨hbf.mpr ⟨hr.mpr hre, hfl⟩, rfl⟩)))⟩
      · exact (hent2 _ _ _ _ ht).elim
      · simp at ht

/-- **C64**, disagreement: a sniffer that is not promiscuous should see the frames passed up to the network layer, but in the
code it sees only the frames the device sends. -/
theorem C64_sniffer_misses_receptions : ¬ ∀ (E : Env) (s0 s : Sys) (ops : List Op), Initial s0 → exec E s0 ops = .ok s →
    ∀ d, rxCalls d s.log ≠ [] → sniffed d s.log ≠ [] := by
  intro hall
  have ok : Demo.check Demo.env Demo.sys [.attach 0 0, .attach 1 0, .send 0 [7] (.mac (Demo.mac 2)) 2048, .run, .run]
    (fun s => rxCalls 1 s.log = [[7]] ∧ sniffed 1 s.log = []) = true := by decide +kernel
  obtain ⟨s, hs, ht⟩ := Demo.exists_of_check ok
  simp only [decide_eq_true_eq] at ht
  exact hall _ _ _ _ Demo.sys_initial hs 1 (by rw [ht.1]; simp) ht.2

/-- The lists compared above are not empty in this history: a frame is sent and received, a frame is refused because the
queue is full. -/
example : Demo.check Demo.env Demo.sys
    [.attach 0 0, .attach 1 0, .send 0 [7] (.mac (Demo.mac 2)) 2048, .send 0 [8] (.mac (Demo.mac 2)) 2048,
      .send 0 [9] (.mac (Demo.mac 2)) 2048, .send 0 [10] (.mac (Demo.mac 2)) 2048, .run, .run]
    (fun s => (macTxs 0 s.log).length = 4 ∧ (macTxDrops 0 s.log).length = 1 ∧ (begun 0 s.log).length = 2 ∧
      (arrived 1 s.log).length = 1 ∧ (macRxs 1 s.log).length = 1 ∧ (promiscSniffed 1 s.log).length = 1) = true := by
  decide +kernel

/-- Gateway 0 alone on the channel: its frame reaches nobody and PhyTxDrop reports it; with satellite 1 it is not reported. -/
example : Demo.check Demo.env Demo.sys [.attach 0 0, .send 0 [7] (.mac (Demo.mac 2)) 2048]
      (fun s => (phyTxDrops 0 s.log).length = 1) = true ∧
    Demo.check Demo.env Demo.sys [.attach 0 0, .attach 1 0, .send 0 [7] (.mac (Demo.mac 2)) 2048]
      (fun s => phyTxDrops 0 s.log = []) = true := by
  constructor <;> decide +kernel

end Verif
