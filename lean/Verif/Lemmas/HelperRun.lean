import Verif.Lemmas.Helper
import Verif.Lemmas.NoFault
/-! Networks built by the helpers as results of ordinary histories. -/

namespace Verif
open Spec

theorem setDev_setDev_comm {s : Sys} {d x : DevId} (v w : Dev) (h : d ≠ x) :
    (s.setDev d v).setDev x w = (s.setDev x w).setDev d v := by
  unfold Sys.setDev
  congr 1
  funext y
  simp only
  split <;> split
  · rename_i h1 h2; exact absurd (h2.symm.trans h1) h
  all_goals rfl

theorem setChan_setChan_comm {s : Sys} {d x : ChanId} (v w : Chan) (h : d ≠ x) :
    (s.setChan d v).setChan x w = (s.setChan x w).setChan d v := by
  unfold Sys.setChan
  congr 1
  funext y
  simp only
  split <;> split
  · rename_i h1 h2; exact absurd (h2.symm.trans h1) h
  all_goals rfl

theorem attach_setDev {s s' : Sys} {d x : DevId} {c : ChanId} {v : Dev} (h : attach s d c = .ok s') (hx : d ≠ x) :
    attach (s.setDev x v) d c = .ok (s'.setDev x v) := by
  have e1 : (s.setDev x v).dev d = s.dev d := by simp [Sys.setDev, hx]
  have e2 : (s.setDev x v).chan c = s.chan c := rfl
  have key : ∀ (w : Dev) (k : Chan) (e e' : Ev), ((((s.setDev x v).setChan c k).setDev d w).emit e).emit e' =
      ((((s.setChan c k).setDev d w).emit e).emit e').setDev x v := by
    intro w k e e'
    show (((((s.setChan c k).setDev x v).setDev d w).emit e).emit e') = _
    rw [setDev_setDev_comm _ _ (fun hh => hx hh.symm)]
    rfl
  unfold attach at h ⊢
  simp only [e1, e2] at h ⊢
  split at h
  · injection h with h; subst h; rw [key]
  · split at h
    · cases h
    · rename_i hl
      rw [if_neg hl]
      split at h <;> (injection h with h; subst h; rw [key])

theorem attach_setChan {s s' : Sys} {d : DevId} {c x : ChanId} {v : Chan} (h : attach s d c = .ok s') (hx : c ≠ x) :
    attach (s.setChan x v) d c = .ok (s'.setChan x v) := by
  have e1 : (s.setChan x v).dev d = s.dev d := rfl
  have e2 : (s.setChan x v).chan c = s.chan c := by simp [Sys.setChan, hx]
  have key : ∀ (w : Dev) (k : Chan) (e e' : Ev), ((((s.setChan x v).setChan c k).setDev d w).emit e).emit e' =
      ((((s.setChan c k).setDev d w).emit e).emit e').setChan x v := by
    intro w k e e'
    rw [setChan_setChan_comm _ _ (fun hh => hx hh.symm)]
    rfl
  unfold attach at h ⊢
  simp only [e1, e2] at h ⊢
  split at h
  · injection h with h; subst h; rw [key]
  · split at h
    · cases h
    · rename_i hl
      rw [if_neg hl]
      split at h <;> (injection h with h; subst h; rw [key])

theorem exec_attach_setDev {E : Env} {s s' : Sys} {x : DevId} {v : Dev} {ops : List Op}
    (ho : ∀ op ∈ ops, ∃ d c, op = .attach d c ∧ d ≠ x) (h : exec E s ops = .ok s') :
    exec E (s.setDev x v) ops = .ok (s'.setDev x v) := by
  induction ops generalizing s with
  | nil => injection h with h; subst h; rfl
  | cons op ops ih =>
    obtain ⟨d, c, rfl, hd⟩ := ho _ List.mem_cons_self
    simp only [exec] at h
    rw [Outcome.bind_eq_ok] at h
    obtain ⟨s1, h1, h2⟩ := h
    have h1' : step E (s.setDev x v) (.attach d c) = .ok (s1.setDev x v) := attach_setDev h1 hd
    simp only [exec, h1', Outcome.ok_bind]
    exact ih (fun op hop => ho op (List.mem_cons_of_mem _ hop)) h2

theorem exec_attach_setChan {E : Env} {s s' : Sys} {x : ChanId} {v : Chan} {ops : List Op}
    (ho : ∀ op ∈ ops, ∃ d c, op = .attach d c ∧ c ≠ x) (h : exec E s ops = .ok s') :
    exec E (s.setChan x v) ops = .ok (s'.setChan x v) := by
  induction ops generalizing s with
  | nil => injection h with h; subst h; rfl
  | cons op ops ih =>
    obtain ⟨d, c, rfl, hd⟩ := ho _ List.mem_cons_self
    simp only [exec] at h
    rw [Outcome.bind_eq_ok] at h
    obtain ⟨s1, h1, h2⟩ := h
    have h1' : step E (s.setChan x v) (.attach d c) = .ok (s1.setChan x v) := attach_setChan h1 hd
    simp only [exec, h1', Outcome.ok_bind]
    exact ih (fun op hop => ho op (List.mem_cons_of_mem _ hop)) h2

/-- The network `b` is what the attachments `ops` make of the initial system `s0`. -/
structure Born (b : Build) (s0 : Sys) (ops : List Op) : Prop where
  init : Initial s0
  mac : b.lastMac = b.nextDev
  att : ∀ op ∈ ops, ∃ (d c : Nat), op = .attach d c ∧ d < b.nextDev ∧ c < b.nextChan ∧
    ((s0.chan c).kind = .leo → (s0.dev d).leo = true)
  runs : ∀ E, exec E s0 ops = .ok b.sys
  dev : ∀ d : Nat, d < b.nextDev → Equipped (s0.dev d) ∧ (s0.dev d).addr = Mac48.ofNat (d + 1)

theorem born_start {s : Sys} (h : Initial s) : Born (Build.start s) s [] :=
  ⟨h, rfl, by simp, fun _ => rfl, fun d hd => absurd hd (Nat.not_lt_zero d)⟩

theorem born_newChannel {b : Build} {s0 : Sys} {ops : List Op} {k : ChanKind} {f : ChanFactory} (h : Born b s0 ops) :
    Born (b.newChannel k f) (s0.setChan b.nextChan ⟨k, [], [], []⟩) ops := by
  refine ⟨?_, h.mac, ?_, ?_, h.dev⟩
  · refine ⟨h.init.idle, ?_, h.init.pending, h.init.log⟩
    intro c
    by_cases hc : c = b.nextChan
    · simp [Sys.setChan, hc]
    · simpa [Sys.setChan, hc] using h.init.chans c
  · intro op hop
    obtain ⟨d, c, rfl, h1, h2, h3⟩ := h.att op hop
    refine ⟨d, c, rfl, h1, Nat.lt_succ_of_lt h2, ?_⟩
    simpa [Sys.setChan, Nat.ne_of_lt h2] using h3
  · intro E
    refine exec_attach_setChan ?_ (h.runs E)
    intro op hop
    obtain ⟨d, c, rfl, h1, h2, h3⟩ := h.att op hop
    exact ⟨d, c, rfl, Nat.ne_of_lt h2⟩

theorem born_models {b : Build} {s0 : Sys} {ops : List Op} {c : ChanId} {m : LossModel} {m' : DelayModel}
    (h : Born b s0 ops) : Born ((b.setLoss c m).setDelay c m') s0 ops := ⟨h.init, h.mac, h.att, h.runs, h.dev⟩

theorem born_installOne {f : DevFactory} {qf : QueueFactory} {c : Nat} {n : NodeId} {b b' : Build} {d : DevId}
    {s0 : Sys} {ops : List Op} (h : Born b s0 ops) (hc : c < b.nextChan)
    (e : Build.installOne f qf c n b = .ok (b', d)) :
    (∃ v, Born b' (s0.setDev b.nextDev v) (ops ++ [.attach b.nextDev c])) ∧ b'.nextChan = b.nextChan := by
  unfold Build.installOne at e
  simp only at e
  rw [Outcome.bind_eq_ok] at e
  obtain ⟨s, ha, e⟩ := e
  injection e with e
  injection e with e _
  subst e
  obtain ⟨c1, c2, c3, c4, c5, c6⟩ := create_fixed f
  obtain ⟨v, hv⟩ : ∃ v : Dev, v = { f.create with
    addr := Mac48.ofNat (b.lastMac + 1), node := some n, rxCb := true, hasQueue := true, queue := [], cap := qf.create.cap } :=
    ⟨_, rfl⟩
  rw [← hv] at ha
  refine ⟨⟨v, ?_, ?_, ?_, ?_, ?_⟩, rfl⟩
  · refine ⟨?_, h.init.chans, h.init.pending, h.init.log⟩
    intro x
    by_cases hx : x = b.nextDev
    · simp [Sys.setDev, hx, hv, c2, c3, c4, c5]
    · simpa [Sys.setDev, hx] using h.init.idle x
  · simp [h.mac]
  · intro op hop
    rcases List.mem_append.mp hop with hop | hop
    · obtain ⟨x, y, rfl, h1, h2, h3⟩ := h.att op hop
      refine ⟨x, y, rfl, Nat.lt_succ_of_lt h1, h2, ?_⟩
      simpa [Sys.setDev, Nat.ne_of_lt h1] using h3
    · refine ⟨b.nextDev, c, List.mem_singleton.mp hop, Nat.lt_succ_self _, hc, ?_⟩
      intro hk
      have hk' : (b.sys.chan c).kind = .leo := by
        have := kind_exec (h.runs ⟨fun _ => false, fun _ => none, fun _ => none, ⟨false, fun _ => 0⟩, fun _ _ => 0, fun _ _ _ _ => false⟩) c
        rw [this]; exact hk
      simp only [Sys.setDev, if_true]
      obtain ⟨g, t, hgt, _⟩ := attach_ok ha
      rcases hgt with ⟨hi, _⟩ | ⟨_, hl, _⟩
      · rw [show ((b.sys.setDev b.nextDev v).chan c) = b.sys.chan c from rfl, hk'] at hi; cases hi
      · simpa [Sys.setDev] using hl
  · intro E
    have : exec E (s0.setDev b.nextDev v) ops = .ok (b.sys.setDev b.nextDev v) := by
      refine exec_attach_setDev ?_ (h.runs E)
      intro op hop
      obtain ⟨x, y, rfl, h1, h2, h3⟩ := h.att op hop
      exact ⟨x, y, rfl, Nat.ne_of_lt h1⟩
    rw [exec_append, this]
    simp only [Outcome.ok_bind, exec, step, ha]
  · intro x hx
    by_cases hxd : x = b.nextDev
    · subst hxd
      simp only [Sys.setDev, if_true]
      refine ⟨⟨by simp [hv], by simp [hv], by simp [hv]⟩, by simp [hv, h.mac]⟩
    · simp only [Sys.setDev, hxd, if_false]
      exact h.dev x (by simp only at hx; omega)

theorem born_installAll {f : DevFactory} {qf : QueueFactory} {c : Nat} {ns : List NodeId} {b b' : Build} {l : List DevId}
    {s0 : Sys} {ops : List Op} (h : Born b s0 ops) (hc : c < b.nextChan)
    (e : Build.installAll f qf c ns b = .ok (b', l)) : (∃ s1 ops', Born b' s1 ops') ∧ b'.nextChan = b.nextChan := by
  induction ns generalizing b l s0 ops with
  | nil => injection e with e; injection e with e _; subst e; exact ⟨⟨_, _, h⟩, rfl⟩
  | cons n ns ih =>
    obtain ⟨⟨b1, d⟩, e1, e⟩ := Outcome.bind_eq_ok.mp e
    obtain ⟨⟨b2, ds⟩, e2, e⟩ := Outcome.bind_eq_ok.mp e
    injection e with e
    injection e with e _
    subst e
    obtain ⟨⟨v, h1⟩, h2⟩ := born_installOne h hc e1
    obtain ⟨h3, h4⟩ := ih h1 (by rw [h2]; exact hc) e2
    exact ⟨h3, h4.trans h2⟩

theorem born_leo {h : LeoChannelHelper} {sats gnds : List NodeId} {b b' : Build} {l : List DevId}
    {s0 : Sys} {ops : List Op} (w : Born b s0 ops) (e : h.install sats gnds b = .ok (b', l)) :
    ∃ s1 ops', Born b' s1 ops' := by
  unfold LeoChannelHelper.install at e
  obtain ⟨⟨b1, l1⟩, e1, e⟩ := Outcome.bind_eq_ok.mp e
  obtain ⟨⟨b2, l2⟩, e2, e⟩ := Outcome.bind_eq_ok.mp e
  injection e with e
  injection e with e _
  subst e
  obtain ⟨⟨s1, o1, h1⟩, h2⟩ := born_installAll (born_models (born_newChannel w)) (Nat.lt_succ_self _) e1
  exact (born_installAll h1 (by rw [h2]; exact Nat.lt_succ_self _) e2).1

theorem born_isl {h : IslHelper} {nodes : List NodeId} {b b' : Build} {l : List DevId}
    {s0 : Sys} {ops : List Op} (w : Born b s0 ops) (e : h.install nodes b = .ok (b', l)) :
    ∃ s1 ops', Born b' s1 ops' := by
  unfold IslHelper.install at e
  exact (born_installAll (born_newChannel w) (Nat.lt_succ_self _) e).1

theorem born_run {is : List Install} {b b' : Build} {s0 : Sys} {ops : List Op} (w : Born b s0 ops)
    (e : Build.run is b = .ok b') : ∃ s1 ops', Born b' s1 ops' := by
  induction is generalizing b s0 ops with
  | nil => injection e with e; subst e; exact ⟨_, _, w⟩
  | cons i is ih =>
    cases i with
    | leo h sats gnds =>
      obtain ⟨⟨b1, l1⟩, e1, e⟩ := Outcome.bind_eq_ok.mp e
      obtain ⟨s1, o1, h1⟩ := born_leo w e1
      exact ih h1 e
    | isl h nodes =>
      obtain ⟨⟨b1, l1⟩, e1, e⟩ := Outcome.bind_eq_ok.mp e
      obtain ⟨s1, o1, h1⟩ := born_isl w e1
      exact ih h1 e

end Verif
