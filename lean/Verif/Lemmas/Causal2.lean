import Verif.Lemmas.Causal
import Verif.Lemmas.Isolation
/-!
# Lemmas about ways of packets in the example programs
-/

namespace Verif
open Spec

/-- Only devices with numbers below `n` are on channels. -/
structure Below (n : Nat) (s : Sys) : Prop where
  dev : ∀ (d : Nat) c, (s.dev d).chan = some c → d < n
  link : ∀ c, ∀ d ∈ (s.chan c).link, @LT.lt Nat _ d n
  gnd : ∀ c, ∀ e ∈ (s.chan c).gnd, @LT.lt Nat _ e.2 n
  sat : ∀ c, ∀ e ∈ (s.chan c).sat, @LT.lt Nat _ e.2 n

theorem below_initial {n : Nat} {s : Sys} (h : Initial s) : Below n s where
  dev := fun d c hc => by rw [(h.idle d).2.2.2.2] at hc; cases hc
  link := fun c d hd => by rw [(h.chans c).1] at hd; cases hd
  gnd := fun c d hd => by rw [(h.chans c).2.1] at hd; cases hd
  sat := fun c d hd => by rw [(h.chans c).2.2] at hd; cases hd

theorem below_attach {E : Env} {n : Nat} {s s' : Sys} (hb : Below n s) {d : Nat} {c : ChanId} (hd : d < n) (h : step E s (.attach d c) = .ok s') :
    Below n s' := by
  obtain ⟨g, t, hgt, rfl⟩ := attach_ok h
  have hg : ∀ e ∈ g, @LT.lt Nat _ e.2 n := by
    rcases hgt with ⟨_, rfl, _⟩ | ⟨_, _, ⟨_, rfl, _⟩ | ⟨_, rfl, _⟩⟩
    · exact hb.gnd c
    · intro e he
      rcases of_mem_mapInsert he with rfl | he
      · exact hd
      · exact hb.gnd c e he
    · exact hb.gnd c
  have ht : ∀ e ∈ t, @LT.lt Nat _ e.2 n := by
    rcases hgt with ⟨_, _, rfl⟩ | ⟨_, _, ⟨_, _, rfl⟩ | ⟨_, _, rfl⟩⟩
    · exact hb.sat c
    · exact hb.sat c
    · intro e he
      rcases of_mem_mapInsert he with rfl | he
      · exact hd
      · exact hb.sat c e he
  constructor
  · intro x c' hx
    simp only at hx
    split at hx
    · rename_i he; rw [he]; exact hd
    · exact hb.dev x c' hx
  · intro c' x hx
    simp only at hx
    split at hx
    · rcases List.mem_append.mp hx with hx | hx
      · exact hb.link c x hx
      · rw [List.mem_singleton.mp hx]; exact hd
    · exact hb.link c' x hx
  · intro c' x hx
    simp only at hx
    split at hx
    · exact hg x hx
    · exact hb.gnd c' x hx
  · intro c' x hx
    simp only at hx
    split at hx
    · exact ht x hx
    · exact hb.sat c' x hx

theorem below_plain {E : Env} {n : Nat} {s s' : Sys} (hb : Below n s) {op : Op} (hp : PlainTraffic op) (h : step E s op = .ok s') : Below n s' := by
  obtain ⟨k1, k2⟩ := kept_exec (E := E) (ops := [op]) (s := s) (s' := s') (by simpa using hp) (by simp only [exec, h, Outcome.ok_bind])
  exact ⟨fun d c hc => hb.dev d c (by rw [← (k1 d).chan]; exact hc), by rw [k2]; exact hb.link, by rw [k2]; exact hb.gnd, by rw [k2]; exact hb.sat⟩

theorem below_exec {E : Env} {n : Nat} {ops : List Op} : ∀ {s s' : Sys}, Below n s →
    (∀ op ∈ ops, (∃ d c : Nat, op = .attach d c ∧ d < n) ∨ PlainTraffic op) → exec E s ops = .ok s' → Below n s' := by
  induction ops with
  | nil => intro s s' hb _ h; injection h with h; subst h; exact hb
  | cons op ops ih =>
    intro s s' hb ho h
    simp only [exec] at h
    rw [Outcome.bind_eq_ok] at h
    obtain ⟨s1, h1, h2⟩ := h
    refine ih ?_ (fun o h => ho o (List.mem_cons_of_mem _ h)) h2
    rcases ho op List.mem_cons_self with ⟨d, c, rfl, hd⟩ | hp
    · exact below_attach hb hd h1
    · exact below_plain hb hp h1

/-- Packets are handed only to devices with such numbers. -/
theorem below_handed {E : Env} {n : Nat} {ops : List Op} {s s' : Sys} (h0 : Initial s)
    (ho : ∀ op ∈ ops, (∃ d c : Nat, op = .attach d c ∧ d < n) ∨ PlainTraffic op) (h : exec E s ops = .ok s') {t : Time} {c : ChanId} {f : Bytes}
    {src dst : DevId} {tx del : Time} (hm : (t, Ev.txrx c f src dst tx del) ∈ s'.log) : @LT.lt Nat _ dst n := by
  obtain ⟨o1, op, o2, s1, s2, rfl, h1, h2, h3, h4⟩ := log_entry_origin h0 h hm
  have hb := below_exec (below_initial h0) (fun op hop => ho op (List.mem_append_left _ hop)) h1
  have hg := good_exec h0 h1
  obtain ⟨dest, pw, _, _, haud, _⟩ := txrx_step hg.inv hg.wired h2 h4
  unfold audience at haud
  simp only at haud
  split at haud
  · cases haud
  · split at haud
    · split at haud
      · obtain ⟨e, he, rfl⟩ := List.mem_map.mp haud
        exact hb.sat c e he
      · split at haud
        · obtain ⟨e, he, rfl⟩ := List.mem_map.mp haud
          exact hb.gnd c e he
        · cases haud
    · split at haud
      · rename_i hf
        rw [List.mem_singleton.mp haud]
        exact hb.link c _ (List.mem_of_find?_eq_some hf)
      · split at haud
        · exact hb.link c _ (List.mem_of_mem_eraseIdx haud)
        · cases haud

end Verif
