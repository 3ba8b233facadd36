import Verif.Lemmas.ChannelTrace3
import Verif.Lemmas.ChannelTrace4
import Verif.Lemmas.ChannelTrace5
/-! A call of `Send` whose deliveries are interrupted once. -/

namespace Verif
open Spec

theorem recvOf_isSome {E : Env} {s : Sys} {c : ChanId} {src x : DevId} {t : Time} :
    (recvOf E s c src t x).isSome = (reachDev E s c src 0 x).isSome := by
  unfold recvOf reachDev
  cases (s.dev src).node with
  | none => rfl
  | some a =>
    cases (s.dev x).node with
    | none => rfl
    | some b =>
      simp only [Option.isSome_map]
      unfold reach
      cases E.hasMob a <;> cases E.hasMob b <;> try rfl

theorem SameNet.recv {E : Env} {s t : Sys} (h : SameNet s t) {c : ChanId} {src x : DevId} {tx : Time} :
    (recvOf E t c src tx x).isSome = (reachDev E s c src 0 x).isSome := by
  rw [recvOf_same h.now (h.node src) (h.txPower src) (h.node x), recvOf_isSome]

theorem SameNet.audience {s t : Sys} (h : SameNet s t) (c : ChanId) (slot : Nat) (dest : Addr) :
    audience t c slot dest = audience s c slot dest := by
  simp only [Spec.audience, h.chan, h.addr]

theorem SameNet.keyed {D : List DevId} {s t : Sys} (h : SameNet s t) (hs : Keyed D s) : Keyed D t := by
  refine ⟨?_, ?_, ?_, ?_, ?_⟩
  · rw [h.chan]; exact hs.gnd
  · rw [h.chan]; exact hs.sat
  · rw [h.chan]; simp only [h.addr]; exact hs.gndKey
  · rw [h.chan]; simp only [h.addr]; exact hs.satKey
  · simp only [h.addr]; exact hs.unique

theorem sinks_atRound {E : Env} {i : Nat} {op : Op} {c : ChanId} {a : Mac48} {u : Sys} :
    sinksR E (.txrxAt c a i) (atRound i op) u = confK E (fun _ t => .ok t) [(c, a)] u op := by
  unfold sinksR atRound
  rw [sinksI, if_pos (by rfl), sendI, sinksI_nil]
  simp only [Hook.iters]
  cases confK E (fun _ t => .ok t) [(c, a)] u op with
  | fail e => rfl
  | ok v => simp only [Outcome.ok_bind, sinksI]

theorem sinks_atRound_isl {E : Env} {i : Nat} {op : Op} {u : Sys} :
    sinksR E (.txrx i) (atRound i op) u = step E u op := by
  unfold sinksR atRound
  rw [sinksI, if_pos (by rfl), sendI, sinksI_nil]
  simp only [Hook.iters, confK_plain]
  cases step E u op with
  | fail e => rfl
  | ok v => simp only [Outcome.ok_bind, sinksI]

theorem sinks_atRound_ne {E : Env} {i j : Nat} {op : Op} {u : Sys} (h : j ≠ i) {hk : Hook} (hh : hk.point = .txrx j) :
    sinksR E hk (atRound i op) u = .ok u := by
  unfold sinksR atRound
  rw [sinksI, if_neg (by rw [hh]; intro he; injection he with he; exact h he.symm), sinksI]

theorem atRound_only {E : Env} {i : Nat} {op : Op} : ChanOnly (fun h t => sinksR E h (atRound i op) t) :=
  sinksR_chanOnly (sc := atRound i op) rfl

/-- Which devices a successful `Send` hands its frame to, told from the log. -/
theorem receivers_landed {s t s3 : Sys} {b : Bool} {d : DevId} {g f p : Bytes} {dest : Addr} {proto : UInt16}
    {l l' : List (Time × Ev)} (h1 : t.log = s.log ++ l) (h2 : receivers l = []) (h3 : s3.log = t.log ++ l') :
    receivers (newLog s ((landed d g (s3, b)).emit (.sendRet d p dest proto true f))) = receivers l' := by
  unfold newLog landed
  cases b <;>
    simp [Sys.emit, h3, h1, receivers_append_traced, h2, List.append_assoc] <;> simp [receivers, proj]

theorem receivers_chan {E : Env} {s t : Sys} (hn : SameNet s t) {c : ChanId} {g : Bytes} {slot : Nat} {dest : Addr} {tx : Time}
    {r : Sys × Bool} {src : DevId} (hsl : (s.chan c).link[slot]? = some src) (h : chanTransmit E t c g slot dest tx = .ok r) :
    ∃ l, r.1.log = t.log ++ l ∧ receivers l = (audience s c slot dest).filter (fun x => (reachDev E s c src 0 x).isSome) := by
  obtain ⟨s3, b⟩ := r
  obtain ⟨src', ⟨_, hx⟩, hs, _⟩ := chanTransmit_aud h
  have := hx src (by rw [hn.chan]; exact hsl)
  subst this
  refine ⟨_, by rw [hs]; rfl, ?_⟩
  rw [receivers_entries_traced, recv_dst_map, hn.audience]
  congr 1
  funext x
  exact hn.recv

theorem leoTransmitK_gnd {E : Env} {t : Sys} {c : ChanId} {f : Bytes} {slot : Nat} {dest : Addr} {tx : Time} {src : DevId}
    (hsl : (t.chan c).link[slot]? = some src) (hg : mapHas (t.dev src).addr (t.chan c).gnd = true)
    (hb : mapHas (t.dev src).addr (t.chan c).sat = false) (k : Sinks) :
    leoTransmitK E k t c f slot dest tx = leoLoopK E k c true f src tx ((t.chan c).sat.length + 2 ^ 48) 0 (t.chan c).sat t false := by
  unfold leoTransmitK
  generalize 2 ^ 48 = n
  simp only [hsl, hg, Bool.true_and, hb, if_true, Bool.false_eq_true, if_false]

theorem leoTransmitK_sat {E : Env} {t : Sys} {c : ChanId} {f : Bytes} {slot : Nat} {dest : Addr} {tx : Time} {src : DevId}
    (hsl : (t.chan c).link[slot]? = some src) (hg : mapHas (t.dev src).addr (t.chan c).gnd = false)
    (hb : mapHas (t.dev src).addr (t.chan c).sat = true) (k : Sinks) :
    leoTransmitK E k t c f slot dest tx = leoLoopK E k c false f src tx ((t.chan c).gnd.length + 2 ^ 48) 0 (t.chan c).gnd t false := by
  unfold leoTransmitK
  generalize 2 ^ 48 = n
  simp only [hsl, hg, Bool.false_and, hb, if_true, Bool.false_eq_true, if_false]

/-- The loop of a channel between ground and satellites. -/
theorem leo_loop {E : Env} {t : Sys} {c : ChanId} {f : Bytes} {slot : Nat} {dest : Addr} {tx : Time} {r : Sys × Bool} {src : DevId}
    (hk : (t.chan c).kind = .leo) (hsl : (t.chan c).link[slot]? = some src)
    (h : chanTransmit E t c f slot dest tx = .ok r) (hne : audience t c slot dest ≠ []) :
    ∃ g m, 0 < m ∧ audience t c slot dest = ((t.chan c).dests g).map (·.2) ∧
      (g = true ↔ (t.dev src).addr ∈ (t.chan c).gnd.map Prod.fst) ∧
      deliverAll E c f src tx (((t.chan c).dests g).map (·.2)) t false = .ok r ∧
      ∀ k, chanTransmitK E k t c f slot dest tx =
        leoLoopK E k c g f src tx (((t.chan c).dests g).length + m) 0 ((t.chan c).dests g) t false := by
  unfold chanTransmit at h
  rw [hk] at h
  simp only [leoTransmit, hsl] at h
  have ha : audience t c slot dest = if (t.dev src).addr ∈ (t.chan c).gnd.map Prod.fst then (t.chan c).sat.map Prod.snd
      else if (t.dev src).addr ∈ (t.chan c).sat.map Prod.fst then (t.chan c).gnd.map Prod.snd else [] := by
    simp only [audience, hsl, hk]
  have hK : ∀ k, chanTransmitK E k t c f slot dest tx = leoTransmitK E k t c f slot dest tx := by
    intro k; unfold chanTransmitK; rw [hk]
  have e1 : (t.chan c).dests true = (t.chan c).sat := rfl
  have e2 : (t.chan c).dests false = (t.chan c).gnd := rfl
  have not : ∀ {a : Mac48} {m : List (Mac48 × DevId)}, a ∉ m.map Prod.fst → mapHas a m = false := by
    intro a m hn
    cases hb : mapHas a m with
    | false => rfl
    | true => exact absurd ((mapHas_iff _ _).mp hb) hn
  obtain ⟨N, hN, hpos⟩ : ∃ N : Nat, N = 2 ^ 48 ∧ 0 < N := ⟨2 ^ 48, rfl, by decide⟩
  by_cases hg : (t.dev src).addr ∈ (t.chan c).gnd.map Prod.fst
  · have hg' := (mapHas_iff _ _).mpr hg
    simp only [hg', Bool.true_and] at h
    cases hb : mapHas (t.dev src).addr (t.chan c).sat with
    | true => rw [hb] at h; cases h
    | false =>
      have hL := leoTransmitK_gnd (E := E) (f := f) (dest := dest) (tx := tx) hsl hg' hb
      rw [← hN] at hL
      rw [hb] at h
      simp only [Bool.false_eq_true, if_false, if_true] at h
      refine ⟨true, N, hpos, ?_, ?_, ?_, ?_⟩
      · rw [ha, if_pos hg, e1]
      · simp [hg]
      · rw [e1]; exact h
      · intro k; rw [hK, hL k, e1]
  · have hg' := not hg
    rw [ha, if_neg hg] at hne
    by_cases hs : (t.dev src).addr ∈ (t.chan c).sat.map Prod.fst
    · have hs' := (mapHas_iff _ _).mpr hs
      have hL := leoTransmitK_sat (E := E) (f := f) (dest := dest) (tx := tx) hsl hg' hs'
      rw [← hN] at hL
      simp only [hg', Bool.false_and, hs', Bool.false_eq_true, if_false, if_true] at h
      refine ⟨false, N, hpos, ?_, ?_, ?_, ?_⟩
      · rw [ha, if_neg hg, if_pos hs, e2]
      · simp [hg]
      · rw [e2]; exact h
      · intro k; rw [hK, hL k, e2]
    · rw [if_neg hs] at hne; exact absurd rfl hne

/-- The broadcast loop of a channel between satellites. -/
theorem isl_loop {E : Env} {t : Sys} {c : ChanId} {f : Bytes} {slot : Nat} {dest : Addr} {tx : Time} {src : DevId}
    (hsl : (t.chan c).link[slot]? = some src) (hF : Floods t c slot dest) (k : Sinks) :
    ∃ m, 0 < m ∧ chanTransmitK E k t c f slot dest tx =
      (islLoopK E k c f src slot tx ((t.chan c).link.length + m) 0 t >>= fun s' => .ok (s', true)) := by
  obtain ⟨hk, _, rfl, hno⟩ := hF
  refine ⟨2 ^ 32, by decide, ?_⟩
  unfold chanTransmitK
  rw [hk]
  simp only [islTransmitK, hsl]
  generalize 2 ^ 32 = n
  have : findByAddr t (.mac Mac48.broadcast) (t.chan c).link = none := by
    rw [findByAddr_eq, List.find?_eq_none]
    intro x hx
    simp [hno x hx]
  rw [this]
  simp only [(isBroadcast_iff _).mpr rfl, Bool.or_self, if_true]

theorem SameNet.floods {s t : Sys} (h : SameNet s t) {c : ChanId} {slot : Nat} {dest : Addr} (hF : Floods s c slot dest) :
    Floods t c slot dest := by
  unfold Floods at *
  simp only [h.chan, h.addr]
  exact hF

end Verif
