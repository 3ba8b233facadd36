import Verif.Lemmas.HelperRun
import Verif.Lemmas.Helper
import Verif.Props.EndToEnd
/-! # C62: networks built by the helpers -/

namespace Verif
open Spec

theorem born_proper {E : Env} {b : Build} {s0 : Sys} {ops : List Op} (w : Born b s0 ops) (hm : b.lastMac < 2 ^ 48) :
    ProperRun E s0 ops := by
  refine properRun_of_static w.init ?_ ?_
  · intro op hop
    obtain ⟨d, c, rfl, h1, _, h3⟩ := w.att op hop
    exact ⟨(w.dev d h1).1, h3⟩
  · intro d d' c c' h1 h2 h3
    obtain ⟨e, _, h4, h5, _⟩ := w.att _ h1
    obtain ⟨e', _, h6, h7, _⟩ := w.att _ h2
    injection h4 with h4; subst h4
    injection h6 with h6; subst h6
    rw [(w.dev _ h5).2, (w.dev _ h7).2] at h3
    have h8 := w.mac
    have := Mac48.ofNat_inj (by omega) (by omega) h3
    exact Nat.succ.inj this

theorem attached_only {E : Env} {s0 s : Sys} {ops : List Op} (h0 : Initial s0)
    (ha : ∀ op ∈ ops, ∃ d c : Nat, op = .attach d c) (h : exec E s0 ops = .ok s) :
    s.pending = [] ∧ (∀ x, upcallLog x s.log = []) ∧ (∀ c x, x ∈ members c s.log ↔ x ∈ slots c s.log) := by
  have key : ∀ (ops : List Op) (s s' : Sys), (∀ op ∈ ops, ∃ d c : Nat, op = .attach d c) →
      (s.pending = [] ∧ (∀ x, upcallLog x s.log = []) ∧ (∀ c x, x ∈ members c s.log ↔ x ∈ slots c s.log)) → exec E s ops = .ok s' →
      s'.pending = [] ∧ (∀ x, upcallLog x s'.log = []) ∧ (∀ c x, x ∈ members c s'.log ↔ x ∈ slots c s'.log) := by
    intro ops
    induction ops with
    | nil => intro s s' _ hs h; injection h with h; subst h; exact hs
    | cons op ops ih =>
      intro s s' ha hs h
      simp only [exec] at h
      rw [Outcome.bind_eq_ok] at h
      obtain ⟨s1, h1, h2⟩ := h
      refine ih s1 s' (fun o ho => ha o (List.mem_cons_of_mem _ ho)) ?_ h2
      obtain ⟨d, c, rfl⟩ := ha op List.mem_cons_self
      obtain ⟨g, t, _, rfl⟩ := attach_ok h1
      refine ⟨hs.1, fun x => by rw [upcallLog_append, hs.2.1 x]; rfl, fun c' x => ?_⟩
      have hr := roster_attach (c := c') (log := s.log) (t := s.now) (t' := s.now) (d := d) (c' := c)
        (slot := (s.chan c).link.length)
      show x ∈ (roster c' _).2 ↔ x ∈ (roster c' _).1
      rw [hr]
      by_cases hc : c = c'
      · subst hc
        simp only [if_true, List.mem_append, List.mem_singleton]
        have := hs.2.2 c
        by_cases hd : d ∈ members c s.log
        · rw [if_pos hd, this x]
          constructor
          · exact Or.inl
          · rintro (h | rfl)
            · exact h
            · exact (this _).mp hd
        · rw [if_neg hd, List.mem_append, List.mem_singleton, this x]
      · rw [if_neg hc]
        exact hs.2.2 c' x
  refine key ops s0 s ha ⟨h0.pending, fun x => by rw [h0.log]; rfl, ?_⟩ h
  intro c x
  rw [h0.log]
  exact Iff.rfl

/-- **C62**: whatever sequence of `Install` calls the helpers are given, with whatever settings, the
network they leave is one that plain `Attach` calls produce from devices and channels as constructed — as
long as there were enough addresses these calls keep all rules of proper use. So every
property proved of histories holds of helper-built networks. -/
theorem C62_helper_network_is_history {s : Sys} (h0 : Initial s) {is : List Install} {b : Build}
    (h : Build.run is (Build.start s) = .ok b) :
    ∃ s0 ops, Initial s0 ∧ (∀ op ∈ ops, ∃ d c : Nat, op = .attach d c ∧ d < b.nextDev ∧ c < b.nextChan) ∧
      (∀ E, exec E s0 ops = .ok b.sys) ∧ (b.lastMac < 2 ^ 48 → ∀ E, ProperRun E s0 ops) := by
  obtain ⟨s0, ops, w⟩ := born_run (born_start h0) h
  refine ⟨s0, ops, w.init, ?_, w.runs, fun hm E => born_proper w hm⟩
  intro op hop
  obtain ⟨d, c, rfl, h1, h2, _⟩ := w.att op hop
  exact ⟨d, c, rfl, h1, h2⟩

/-- What a program does with a network after it has been built: it sends packets of at most 65527 bytes to
MAC addresses, changes settings other than addresses and types, lets time pass and runs events. -/
def Traffic : Op → Prop
  | .send _ p dest _ => dest ≠ .other ∧ p.length ≤ 65527
  | .attach .. | .detach .. | .setAddress .. | .setSide .. => False
  | _ => True

theorem traffic_proper {E : Env} {s : Sys} {ops : List Op} (h : ∀ op ∈ ops, Traffic op) : ProperRun E s ops := by
  rintro o1 op o2 s1 rfl _
  have hop := h op (by simp)
  cases op with
  | send d p dest proto => exact ⟨True.intro, hop⟩
  | attach d c => exact hop.elim
  | detach c slot => exact hop.elim
  | setAddress d a => exact hop.elim
  | setSide d a => exact hop.elim
  | _ => exact ⟨True.intro, True.intro⟩

/-- **C62**: traffic in a network built by the helpers never fails, and once traffic stops the remaining
events can be run to the end: then every accepted frame has been transmitted and every reception
announced has taken place. -/
theorem C62_helper_network_never_fails {E : Env} {s : Sys} (h0 : Initial s) {is : List Install} {b : Build}
    (h : Build.run is (Build.start s) = .ok b) (hm : b.lastMac < 2 ^ 48) {ops : List Op} (ht : ∀ op ∈ ops, Traffic op) :
    (∃ s', exec E b.sys ops = .ok s') ∧
    ∃ n s', exec E b.sys (ops ++ List.replicate n .run) = .ok s' ∧ s'.pending = [] ∧
      (∀ d, accepted d s'.log = begun d s'.log ∧ begun d s'.log = ended d s'.log ∧ (s'.dev d).queue = [] ∧
        (s'.dev d).busy = false) ∧ (happened s'.log).Perm (announced s'.log) := by
  obtain ⟨s0, o, w⟩ := born_run (born_start h0) h
  have hp : ProperRun E s0 (o ++ ops) := properRun_append (born_proper w hm) (w.runs E) (traffic_proper ht)
  constructor
  · obtain ⟨s', h'⟩ := C61_proper_use_never_fails w.init hp
    rw [exec_append, w.runs E] at h'
    exact ⟨s', h'⟩
  · obtain ⟨n, s', h', hr⟩ := C61_runs_to_quiescence w.init hp
    rw [List.append_assoc, exec_append, w.runs E] at h'
    exact ⟨n, s', h', hr⟩

open Classical in
/-- **C62**, first packet: in a network just built by the helpers a packet of at most 1492 bytes sent by a
device of a LEO channel reaches the receive callbacks of exactly the devices that the same channel
installed on the other side and that hear the sender; each is called exactly once. -/
theorem C62_helper_network_delivers {E : Env} {s : Sys} (h0 : Initial s) {is : List Install} {b : Build}
    (h : Build.run is (Build.start s) = .ok b) (hm : b.lastMac < 2 ^ 48) (hE : ErrorFree E) {d : DevId} {c : ChanId}
    {p : Bytes} {proto : UInt16} {m : Mac48} (hlen : p.length ≤ 1492) (hup : (b.sys.dev d).linkUp = true)
    (hcap : 0 < (b.sys.dev d).cap) (hc : (b.sys.dev d).chan = some c) (hk : (b.sys.chan c).kind = .leo) :
    ∃ n s', exec E b.sys (.send d p (.mac m) proto :: List.replicate n .run) = .ok s' ∧ s'.pending = [] ∧
      ∀ x, upcallLog x s'.log =
        if x ∈ (b.sys.chan c).link ∧ (b.sys.dev x).side ≠ (b.sys.dev d).side ∧ Hears E b.sys c d m x then
          [(p, proto, (b.sys.dev d).addr)] else [] := by
  obtain ⟨s0, o, w⟩ := born_run (born_start h0) h
  have hat : ∀ op ∈ o, ∃ d c : Nat, op = .attach d c := fun op hop => by
    obtain ⟨d, c, e, _⟩ := w.att op hop
    exact ⟨d, c, e⟩
  have hp := born_proper (E := E) w hm
  have hf := reached_fit w.init hp (w.runs E)
  obtain ⟨hpe, hnone, hms⟩ := attached_only w.init hat (w.runs E)
  obtain ⟨n, s', hex, hpe', hall⟩ := C63_leo_packet (m := m) (proto := proto) hE w.init hp (w.runs E) hpe hup hcap hlen hc hk
  refine ⟨n, s', hex, hpe', fun x => ?_⟩
  have hmem : ∀ x, x ∈ members c b.sys.log ↔ x ∈ (b.sys.chan c).link := fun x => by
    rw [hms c x, (hf.index c).link]
  have hdm : d ∈ members c b.sys.log := (hmem d).mpr (List.mem_of_getElem? (hf.wired d c hc))
  rw [hall x, hnone x, List.nil_append]
  simp only [hdm, hmem, true_and]

/-- The three networks of `LeoHelper::Install` are such a sequence of installations. -/
theorem C62_leo_helper {hl : LeoHelper} {sats gws uts : List NodeId} {s : Sys} {b : Build} {n : LeoHelper.Nets}
    (h : hl.installNets sats gws uts (Build.start s) = .ok (b, n)) :
    Build.run [.isl hl.isl sats, .leo hl.gw sats gws, .leo hl.ut sats uts] (Build.start s) = .ok b := by
  unfold LeoHelper.installNets at h
  obtain ⟨⟨b1, l1⟩, e1, h⟩ := Outcome.bind_eq_ok.mp h
  obtain ⟨⟨b2, l2⟩, e2, h⟩ := Outcome.bind_eq_ok.mp h
  obtain ⟨⟨b3, l3⟩, e3, h⟩ := Outcome.bind_eq_ok.mp h
  injection h with h
  injection h with h _
  subst h
  simp only [Build.run, e1, e2, e3, Outcome.ok_bind]

/-- All hypotheses are met: the installation succeeds, device 4 is the gateway on LEO channel 1, its link is up and its
queue has room, and satellite device 3 hears it. -/
example : ∃ b, Build.run [.isl IslHelper.create [1, 2], .leo LeoChannelHelper.create [1, 2] [3]] (Build.start Demo.sys) = .ok b ∧
    b.lastMac = 5 ∧ (b.sys.dev 4).linkUp = true ∧ (b.sys.dev 4).cap = 100 ∧ (b.sys.dev 4).chan = some 1 ∧
    (b.sys.chan 1).kind = .leo ∧ (b.sys.chan 1).link = [2, 3, 4] ∧ (b.sys.dev 3).side ≠ (b.sys.dev 4).side ∧
    Hears Demo.env b.sys 1 4 (Mac48.ofNat 4) 3 := by
  refine ⟨_, rfl, rfl, rfl, rfl, rfl, rfl, rfl, by decide, (0, 1), rfl, by decide, by decide +kernel, Or.inr (Or.inl rfl)⟩

end Verif
