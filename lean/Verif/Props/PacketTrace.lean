import Verif.Spec.PacketTrace
import Verif.Lemmas.Arrive
import Verif.Props.Ledger
/-!
# C121: the packet traces of the delay tracing program
-/

namespace Verif

open Verif.Spec

/-! ## The counter -/

theorem tracePacket_length (ser : Bytes → Nat) (cs : List (Time × String × DevId × Bytes)) (c : Nat) :
    (tracePacket ser c cs).length = cs.length := by
  induction cs generalizing c with
  | nil => rfl
  | cons x cs ih => simp only [tracePacket, List.length_cons, ih]

theorem tracePacket_get {ser : Bytes → Nat} (hser : ∀ f, ser f < 2 ^ 32) (cs : List (Time × String × DevId × Bytes)) (c i : Nat)
    (hi : i < (tracePacket ser c cs).length) (hs : i < cs.length) :
    (tracePacket ser c cs)[i].now = cs[i].1 ∧ (tracePacket ser c cs)[i].dev = cs[i].2.2.1 ∧ (tracePacket ser c cs)[i].source = cs[i].2.1 ∧
      (tracePacket ser c cs)[i].count = (c + ((cs.take (i + 1)).map fun x => ser x.2.2.2).sum) % 2 ^ 64 := by
  induction cs generalizing c i with
  | nil => exact absurd hs (by simp)
  | cons x cs ih =>
    obtain ⟨t, s, d, f⟩ := x
    cases i with
    | zero =>
      have := Nat.mod_eq_of_lt (hser f)
      refine ⟨rfl, rfl, rfl, ?_⟩
      simp only [tracePacket, List.getElem_cons_zero, this]
      simp
    | succ i =>
      have h := ih ((c + ser f % 2 ^ 32) % 2 ^ 64) i (by simpa [tracePacket] using hi) (by simpa using hs)
      simp only [tracePacket, List.getElem_cons_succ, List.take_succ_cons, List.map_cons, List.sum_cons] at h ⊢
      refine ⟨h.1, h.2.1, h.2.2.1, ?_⟩
      rw [h.2.2.2, Nat.mod_add_mod, Nat.mod_eq_of_lt (hser f)]
      congr 1; omega

theorem filter_of_nodup {conn : List (String × Source)} (hnd : (conn.map (·.2)).Nodup) (x : Source) :
    conn.filter (·.2 == x) = (conn.find? (·.2 == x)).toList := by
  induction conn with
  | nil => rfl
  | cons c conn ih =>
    rw [List.map_cons, List.nodup_cons] at hnd
    by_cases hc : c.2 = x
    · have hb : (c.2 == x) = true := by simp [hc]
      rw [List.filter_cons, if_pos hb, List.find?_cons, hb]
      have : conn.filter (·.2 == x) = [] := by
        rw [List.filter_eq_nil_iff]
        intro y hy he
        exact hnd.1 (List.mem_map.mpr ⟨y, hy, (beq_iff_eq.mp he).trans hc.symm⟩)
      rw [this]; rfl
    · have hb : (c.2 == x) = false := by simp [hc]
      rw [List.filter_cons, if_neg (by simp [hb]), List.find?_cons, hb, ih hnd.2]

/-- The calls are the entries of the kind the connections make. -/
theorem traceCalls_entries {conn : List (String × Source)} {k : Ev → Option (String × DevId × Bytes)} (hnd : (conn.map (·.2)).Nodup)
    (hk : ∀ e, k e = (fired e).bind fun x => (conn.find? (·.2 == x.1)).map fun c => (c.1, x.2)) (log : List (Time × Ev)) :
    traceCalls conn log = entries k log := by
  induction log with
  | nil => rfl
  | cons e log ih =>
    have e1 : entries k (e :: log) = (((k e.2).map fun x => (e.1, x)).toList) ++ entries k log := by
      unfold entries
      rw [List.filterMap_cons]
      cases (k e.2).map fun x => (e.1, x) <;> rfl
    have e2 : traceCalls conn (e :: log) = (match fired e.2 with
        | some x => (conn.filter (·.2 == x.1)).map fun c => (e.1, c.1, x.2)
        | none => []) ++ traceCalls conn log := rfl
    rw [e1, e2, ih, hk]
    congr 1
    cases hf : fired e.2 with
    | none => rfl
    | some x =>
      rw [Option.bind_some]
      simp only [filter_of_nodup hnd]
      cases conn.find? (·.2 == x.1) <;> rfl

theorem metered_of {ser : Bytes → Nat} (hser : ∀ f, ser f < 2 ^ 32) {conn : List (String × Source)} {k : Ev → Option (String × DevId × Bytes)} (hnd : (conn.map (·.2)).Nodup)
    (hk : ∀ e, k e = (fired e).bind fun x => (conn.find? (·.2 == x.1)).map fun c => (c.1, x.2)) (log : List (Time × Ev)) :
    Metered ser (entries k log) (tracePacket ser 0 (traceCalls conn log)) := by
  have hc := traceCalls_entries hnd hk log
  rw [hc]
  refine ⟨tracePacket_length _ _ _, fun i hi hs => ?_, fun i hi => ?_⟩
  · have h := tracePacket_get hser (entries k log) 0 i hi hs
    exact ⟨h.1, h.2.2.1, h.2.1⟩
  · have h := tracePacket_get hser (entries k log) 0 i hi (by rw [tracePacket_length] at hi; exact hi)
    rw [h.2.2.2, Nat.zero_add]

/-! ## The options -/

/-- **C121**: with `traceDrops` there is one line for each drop, in order, with the size of all that was dropped so far. -/
theorem C121_drops {ser : Bytes → Nat} (hser : ∀ f, ser f < 2 ^ 32) (insists : Bool) (log : List (Time × Ev)) :
    ∃ lines, packetTrace ser insists true false log = some lines ∧ Metered ser (entries dropOf log) lines := by
  refine ⟨_, by cases insists <;> rfl, metered_of hser (conn := [("MacTxDrop", .macTxDrop), ("PhyTxDrop", .phyTxDrop), ("MacRxDrop", .macRxDrop), ("PhyRxDrop", .phyRxDrop)]) (by decide) (fun e => ?_) log⟩
  cases e <;> rfl

/-- **C121**, as far as it is true: with `traceTxRx` there is one line for each packet that enters or leaves the network, provided
`Config::Connect` lets the third path pass.  Lines for what the physical layer receives are missing. -/
theorem C121_txrx_partial {ser : Bytes → Nat} (hser : ∀ f, ser f < 2 ^ 32) (log : List (Time × Ev)) :
    ∃ lines, packetTrace ser false false true log = some lines ∧ Metered ser (entries passageOf log) lines := by
  refine ⟨_, rfl, metered_of hser (conn := [("MacTx", .macTx), ("MacRx", .macRx)]) (by decide) (fun e => ?_) log⟩
  cases e <;> rfl

/-- **C121**, as far as it is true: both options together share the counter. -/
theorem C121_both_partial {ser : Bytes → Nat} (hser : ∀ f, ser f < 2 ^ 32) (log : List (Time × Ev)) :
    ∃ lines, packetTrace ser false true true log = some lines ∧ Metered ser (entries eitherOf log) lines := by
  refine ⟨_, rfl, metered_of hser (conn := [("MacTxDrop", .macTxDrop), ("PhyTxDrop", .phyTxDrop), ("MacRxDrop", .macRxDrop), ("PhyRxDrop", .phyRxDrop), ("MacTx", .macTx), ("MacRx", .macRx)]) (by decide) (fun e => ?_) log⟩
  cases e <;> rfl

/-- **C121**: where `Config::Connect` insists on a match, `traceTxRx` stops the program before the simulation starts. -/
theorem C121_fatal (ser : Bytes → Nat) (traceDrops : Bool) (log : List (Time × Ev)) : packetTrace ser true traceDrops true log = none := by
  cases traceDrops <;> rfl

/-- **C121**: without the options nothing is printed. -/
theorem C121_silent (ser : Bytes → Nat) (insists : Bool) (log : List (Time × Ev)) : packetTrace ser insists false false log = some [] := by
  have : traceCalls [] log = [] := by
    unfold traceCalls
    rw [List.flatMap_eq_nil_iff]
    intro e _
    cases fired e.2 <;> rfl
  unfold packetTrace
  cases insists <;> simp [tracePaths, connectAll, this, tracePacket]

/-! ## What can be read off the lines -/

/-- **C121**: the size of each packet is the difference of two counts, whether the counter has run over or not. -/
theorem C121_sizes {ser : Bytes → Nat} (hser : ∀ f, ser f < 2 ^ 32) {seen : List (Time × String × DevId × Bytes)} {lines : List TraceLine}
    (h : Metered ser seen lines) (i : Nat) (hi : i + 1 < lines.length) (hs : i + 1 < seen.length) :
    (lines[i + 1].count + 2 ^ 64 - lines[i].count) % 2 ^ 64 = ser seen[i + 1].2.2.2 := by
  have h0 := h.count i (by omega)
  have h1 := h.count (i + 1) hi
  rw [List.take_succ_eq_append_getElem hs, List.map_append, List.sum_append] at h1
  simp only [List.map_cons, List.map_nil, List.sum_cons, List.sum_nil, Nat.add_zero] at h1
  have := hser seen[i + 1].2.2.2
  rw [h0, h1]
  generalize ((seen.take (i + 1)).map fun x => ser x.2.2.2).sum = a
  generalize ser seen[i + 1].2.2.2 = b at this
  omega

/-- **C121**: as long as fewer than 2^64 bytes were seen, the last count is the size of all packets. -/
theorem C121_total {ser : Bytes → Nat} {seen : List (Time × String × DevId × Bytes)} {lines : List TraceLine} (h : Metered ser seen lines)
    (hne : lines ≠ []) (hsum : (seen.map fun x => ser x.2.2.2).sum < 2 ^ 64) :
    (lines.getLast hne).count = (seen.map fun x => ser x.2.2.2).sum := by
  have hl : 0 < lines.length := List.length_pos_of_ne_nil hne
  rw [List.getLast_eq_getElem, h.count, Nat.sub_add_cancel hl, h.length, List.take_length, Nat.mod_eq_of_lt hsum]

theorem entries_sorted {k : Ev → Option (String × DevId × Bytes)} {log : List (Time × Ev)} (h : log.Pairwise fun a b => a.1 ≤ b.1) :
    (entries k log).Pairwise fun a b => a.1 ≤ b.1 := by
  refine List.Pairwise.filterMap _ (fun a b hab x hx y hy => ?_) h
  obtain ⟨u, _, rfl⟩ := Option.map_eq_some_iff.mp (Option.mem_def.mp hx)
  obtain ⟨v, _, rfl⟩ := Option.map_eq_some_iff.mp (Option.mem_def.mp hy)
  exact hab

/-- **C121**: the lines of a run are in the order of their times, and none is later than the end. -/
theorem C121_sorted {E : Env} {s0 s : Sys} {ops : List Op} {size : Bytes → Nat} {k : Ev → Option (String × DevId × Bytes)} {lines : List TraceLine}
    (h0 : Initial s0) (h : exec E s0 ops = .ok s) (hm : Metered size (entries k s.log) lines) :
    lines.Pairwise (fun a b => a.now ≤ b.now) ∧ ∀ l ∈ lines, l.now ≤ s.now := by
  obtain ⟨h1, h2⟩ := logSorted_exec h0 h
  have hs := entries_sorted (k := k) h1
  constructor
  · rw [List.pairwise_iff_getElem] at hs ⊢
    intro i j hi hj hij
    rw [(hm.line i hi (by rw [← hm.length]; exact hi)).1, (hm.line j hj (by rw [← hm.length]; exact hj)).1]
    exact hs i j _ _ hij
  · intro l hl
    obtain ⟨i, hi, rfl⟩ := List.getElem_of_mem hl
    have hi' : i < (entries k s.log).length := by rw [← hm.length]; exact hi
    rw [(hm.line i hi hi').1]
    obtain ⟨e, he, hx⟩ := List.mem_filterMap.mp (List.getElem_mem hi')
    obtain ⟨u, _, hu⟩ := Option.map_eq_some_iff.mp hx
    rw [← hu]
    exact h2 e he

/-! ## What the trace of drops accounts for -/

theorem entries_length_cons (k : Ev → Option (String × DevId × Bytes)) (e : Time × Ev) (log : List (Time × Ev)) :
    (entries k (e :: log)).length = (entries k log).length + if (k e.2).isSome then 1 else 0 := by
  unfold entries
  rw [List.filterMap_cons]
  cases k e.2 <;> rfl

theorem tally_one (k : Fate) (e : Time × Ev) (log : List (Time × Ev)) :
    tally k (e :: log) = tally k log + if fate e.2 = some k then 1 else 0 := by
  unfold tally
  rw [List.countP_cons]
  simp only [decide_eq_true_eq]

theorem drops_length (log : List (Time × Ev)) :
    (entries dropOf log).length + tally .passedUp log = accounted log := by
  induction log with
  | nil => rfl
  | cons e log ih =>
    have key : ∀ e : Ev, (if (dropOf e).isSome then 1 else 0) = (if fate e = some .macTxDrop then 1 else 0) +
        (if fate e = some .phyTxDrop then 1 else 0) + (if fate e = some .macRxDrop then 1 else 0) +
        (if fate e = some .phyRxDrop then 1 else 0) := fun e => by cases e <;> rfl
    unfold accounted at ih ⊢
    simp only [entries_length_cons, tally_one, key]
    omega

/-- **C121**, inter-satellite links with one peer per device: once the simulation has come to rest, the packets that were given to devices are
those passed up and those that have a line in the trace of drops. -/
theorem C121_lost_partial {E : Env} {s0 s : Sys} {ops : List Op} {peer : DevId → Mac48} {ser : Bytes → Nat} (hser : ∀ f, ser f < 2 ^ 32)
    {insists : Bool} {lines : List TraceLine} (h0 : Initial s0) (h : exec E s0 ops = .ok s) (hp : OnePeer s0 peer ops) (hend : s.pending = [])
    (hl : packetTrace ser insists true false s.log = some lines) : tally .sent s.log = tally .passedUp s.log + lines.length := by
  obtain ⟨l', e, hm⟩ := C121_drops hser insists s.log
  obtain rfl := Option.some.inj (hl.symm.trans e)
  have := C102_isl_end_partial h0 h hp hend
  have h2 := drops_length s.log
  rw [hm.length]
  omega

/-- C121 is false in general: between ground and space a lost packet has no line. -/
theorem C121_unlogged : ¬ DropsAreLogged := by
  intro hd
  obtain ⟨s, h1, h2⟩ := Demo.exists_of_check (E := c102Env) (s := Demo.sys) (ops := c102Leo)
    (test := fun s => s.pending.isEmpty && tally .sent s.log == 1 && accounted s.log == 0) (by decide +kernel)
  simp only [Bool.and_eq_true, beq_iff_eq, List.isEmpty_iff] at h2
  obtain ⟨l, e, hm⟩ := C121_drops (ser := fun _ => 0) (fun _ => by decide) false s.log
  have := hd c102Env _ _ _ _ _ Demo.sys_initial h1 h2.1.1 e
  have h3 := drops_length s.log
  rw [hm.length] at this
  omega

/-- C121 is false of `traceTxRx`, in all versions of ns-3. -/
theorem C121_txrx_fails : ¬ TxRxWorks true ∧ ¬ TxRxWorks false := by
  constructor
  · intro h
    obtain ⟨l, e, _⟩ := h Demo.env Demo.sys Demo.sys [] (fun _ => 0) Demo.sys_initial rfl
    rw [C121_fatal] at e
    cases e
  · intro h
    obtain ⟨s, h1, h2⟩ := Demo.exists_of_check (E := Demo.env) (s := Demo.sys) (ops := c102Isl)
      (test := fun s => s.log.any fun x => match x.2 with
        | .phyRxEnd d _ => (entries passageOf s.log).all fun y => !(y.1 == x.1 && y.2.2.1 == d)
        | _ => false) (by decide +kernel)
    obtain ⟨x, hx, hy⟩ := List.any_eq_true.mp h2
    obtain ⟨l, e, hr⟩ := h Demo.env _ _ _ (fun _ => 0) Demo.sys_initial h1
    obtain ⟨l', e', hm⟩ := C121_txrx_partial (ser := fun _ => 0) (fun _ => by decide) s.log
    obtain rfl := Option.some.inj (e.symm.trans e')
    obtain ⟨t, e⟩ := x
    cases e <;> simp only [Bool.false_eq_true] at hy
    rename_i d f
    obtain ⟨y, hy1, hy2, hy3⟩ := hr t d f hx
    obtain ⟨i, hi, rfl⟩ := List.getElem_of_mem hy1
    have hi' : i < (entries passageOf s.log).length := by rw [← hm.length]; exact hi
    have := List.all_eq_true.mp hy _ (List.getElem_mem hi')
    have hg := hm.line i hi hi'
    rw [← hg.1, ← hg.2.2, hy2, hy3] at this
    simp at this

/-! ## Examples -/

/-- Five packets between two satellites of which two are lost, both with a line. -/
example : ∃ s lines, exec Demo.env Demo.sys (c102Peers ++ List.replicate 8 .run) = .ok s ∧ s.pending = [] ∧
    packetTrace (fun f => 100 + f.length) true true false s.log = some lines ∧ lines.length = 2 ∧ tally .sent s.log = 5 := by
  obtain ⟨s, h1, h2⟩ := Demo.exists_of_check (E := Demo.env) (s := Demo.sys) (ops := c102Peers ++ List.replicate 8 .run)
    (test := fun s => s.pending.isEmpty && ((packetTrace (fun f => 100 + f.length) true true false s.log).map List.length == some 2)
      && tally .sent s.log == 5) (by decide +kernel)
  simp only [Bool.and_eq_true, beq_iff_eq, List.isEmpty_iff] at h2
  obtain ⟨l, hl, hn⟩ := Option.map_eq_some_iff.mp h2.1.2
  exact ⟨s, l, h1, h2.1.1, hl, hn, h2.2⟩

/-- The counter runs over and the size of the third packet can still be told. -/
example : tracePacket (fun f => f.length) (2 ^ 64 - 3) [(1, "MacTx", 0, [1, 2]), (2, "MacRx", 1, [1, 2])]
    = [⟨1, 0, "MacTx", 2 ^ 64 - 1⟩, ⟨2, 1, "MacRx", 1⟩] := by decide +kernel

end Verif
