import Verif.Lemmas.Channel
import Verif.Spec.Link
/-! Lemmas about link states and device ids (C78, C79). -/

namespace Verif
open Spec

/-- Entries without attachments, detachments and link changes. -/
def LinkFreeEv : Ev → Prop
  | .attachRet .. | .detachRet .. | .linkChange .. => False
  | _ => True

theorem linkFree_recvs (now : Time) (c : ChanId) (f : Bytes) (src : DevId) (t : Time) (rs : List Recv) :
    ∀ e ∈ rs.map (Recv.entry now c f src t), LinkFreeEv e.2 := by
  intro e he
  obtain ⟨r, _, rfl⟩ := List.mem_map.mp he
  exact trivial

/-- What a step leaves alone that neither attaches nor detaches. -/
structure LinkQuiet (s s' : Sys) : Prop where
  log : ∃ l, s'.log = s.log ++ l ∧ ∀ e ∈ l, LinkFreeEv e.2
  dev : ∀ x, (s'.dev x).linkUp = (s.dev x).linkUp ∧ (s'.dev x).chan = (s.dev x).chan ∧
    (s'.dev x).chanSlot = (s.dev x).chanSlot
  chan : s'.chan = s.chan

theorem linkQuiet_tx {E : Env} {s s' : Sys} {d : DevId} {f : Bytes} {dest : Addr}
    (h : transmitStart E s d f dest = .ok s') : LinkQuiet s s' := by
  obtain ⟨_, c, src, rs, b, _, _, _, rfl⟩ := transmitStart_ok h
  refine ⟨?_, fun x => by by_cases hx : x = d <;> simp [txState, hx], rfl⟩
  simp only [txState]
  refine ⟨_, rfl, ?_⟩
  intro e he
  rcases List.mem_append.mp he with he | he
  · simp at he; rcases he with rfl | rfl <;> exact trivial
  · rcases List.mem_append.mp he with he | he
    · exact linkFree_recvs _ _ _ _ _ _ e he
    · split at he
      · cases he
      · simp at he; subst he; exact trivial

theorem LinkQuiet.trans {s t u : Sys} (h : LinkQuiet s t) (k : LinkQuiet t u) : LinkQuiet s u := by
  obtain ⟨⟨l, h1, h2⟩, h3, h4⟩ := h
  obtain ⟨⟨m, k1, k2⟩, k3, k4⟩ := k
  refine ⟨⟨l ++ m, by rw [k1, h1, List.append_assoc], ?_⟩, fun x => ?_, k4.trans h4⟩
  · intro e he
    rcases List.mem_append.mp he with he | he
    · exact h2 e he
    · exact k2 e he
  · obtain ⟨a, b, c⟩ := h3 x
    obtain ⟨a', b', c'⟩ := k3 x
    exact ⟨a'.trans a, b'.trans b, c'.trans c⟩

theorem linkQuiet_step {E : Env} {s s' : Sys} {op : Op} (h : step E s op = .ok s') :
    LinkQuiet s s' ∨ (∃ d c, op = .attach d c) ∨ (∃ c slot, op = .detach c slot) := by
  have quiet : ∀ (v : DevId → Dev) (now : Time) (ps : List Pending) (l : List (Time × Ev)),
      (∀ x, (v x).linkUp = (s.dev x).linkUp ∧ (v x).chan = (s.dev x).chan ∧ (v x).chanSlot = (s.dev x).chanSlot) →
      (∀ e ∈ l, LinkFreeEv e.2) → LinkQuiet s ⟨v, s.chan, now, ps, s.log ++ l⟩ :=
    fun v now ps l h1 h2 => ⟨⟨l, rfl, h2⟩, h1, rfl⟩
  have same : ∀ (now : Time) (ps : List Pending), LinkQuiet s ⟨s.dev, s.chan, now, ps, s.log⟩ :=
    fun now ps => ⟨⟨[], by simp, by simp⟩, fun _ => ⟨rfl, rfl, rfl⟩, rfl⟩
  have set : ∀ (d : DevId) (v : Dev), v.linkUp = (s.dev d).linkUp → v.chan = (s.dev d).chan →
      v.chanSlot = (s.dev d).chanSlot → LinkQuiet s (s.setDev d v) := by
    intro d v h1 h2 h3
    refine ⟨⟨[], by simp [Sys.setDev], by simp⟩, fun x => ?_, rfl⟩
    by_cases hx : x = d
    · subst hx; simp [Sys.setDev, h1, h2, h3]
    · simp [Sys.setDev, hx]
  cases op with
  | send d p dest proto =>
    left
    rcases send_ok h with ⟨_, rfl⟩ | ⟨hlu, _, m, hm, f, hf, hcase⟩
    · exact quiet s.dev s.now s.pending _ (fun x => ⟨rfl, rfl, rfl⟩)
        (by intro e he; simp at he; rcases he with rfl | rfl <;> exact trivial)
    · rcases hcase with ⟨_, rfl⟩ | ⟨hlen, hb, rfl⟩ | ⟨hlen, hb, g, rest, s3, hq, hts, rfl⟩
      · exact quiet s.dev s.now s.pending _ (fun x => ⟨rfl, rfl, rfl⟩)
          (by intro e he; simp at he; rcases he with rfl | rfl | rfl <;> exact trivial)
      · exact quiet _ s.now s.pending _ (fun x => by by_cases hx : x = d <;> simp [hx])
          (by intro e he; simp at he; rcases he with rfl | rfl <;> exact trivial)
      · refine LinkQuiet.trans (LinkQuiet.trans (quiet _ s.now s.pending _ ?_ ?_) (linkQuiet_tx hts))
          ⟨⟨_, rfl, ?_⟩, fun _ => ⟨rfl, rfl, rfl⟩, rfl⟩
        · intro x; by_cases hx : x = d <;> simp [hx]
        · intro e he; simp at he; rcases he with rfl | rfl | rfl <;> exact trivial
        · intro e he; simp at he; subst he; exact trivial
  | sendFrom =>
    injection h with h; subst h; left
    exact quiet s.dev s.now s.pending _ (fun x => ⟨rfl, rfl, rfl⟩)
      (by intro e he; simp at he; rcases he with rfl; exact trivial)
  | attach d c => exact Or.inr (Or.inl ⟨d, c, rfl⟩)
  | detach c slot => exact Or.inr (Or.inr ⟨c, slot, rfl⟩)
  | setAddress d a =>
    cases a with
    | other => cases h
    | mac m => left; injection h with h; subst h; exact set _ _ rfl rfl rfl
  | run =>
    left
    simp only [step, run] at h
    split at h
    · injection h with h; subst h; exact same s.now s.pending
    · rename_i p ps hp
      obtain ⟨t, a⟩ := p
      cases a with
      | receive d f src rx =>
        obtain ⟨l, hl, rfl⟩ := receive_ok h
        refine quiet s.dev t ps _ (fun x => ⟨rfl, rfl, rfl⟩) ?_
        intro e he
        rcases List.mem_cons.mp he with rfl | he
        · exact trivial
        · obtain ⟨x, hx, rfl⟩ := List.mem_map.mp he
          have := hl x hx
          cases x <;> first | exact trivial | (exfalso; exact this)
      | txComplete d dest =>
        obtain ⟨hb, _, f, hcur, hcase⟩ := transmitComplete_ok h
        rcases hcase with ⟨hq, rfl⟩ | ⟨q, rest, hq, hts⟩
        · exact quiet _ t ps _ (fun x => by by_cases hx : x = d <;> simp [hx])
            (by intro e he; simp at he; rcases he with rfl; exact trivial)
        · refine LinkQuiet.trans (quiet _ t ps _ ?_ ?_) (linkQuiet_tx hts)
          · intro x; by_cases hx : x = d <;> simp [hx]
          · intro e he; simp at he; rcases he with rfl | rfl | rfl <;> exact trivial
  | wait dt =>
    left
    simp only [step] at h
    split at h <;> injection h with h <;> subst h
    · exact same _ _
    · exact same _ _
  | _ => injection h with h; subst h; left; exact set _ _ rfl rfl rfl

theorem LinkFreeEv.roster {e : Ev} (h : LinkFreeEv e) : RosterFreeEv e := by
  cases e <;> first | exact trivial | exact h

/-- Entries after which a device that was not attached again is up iff it was and was not detached. -/
theorem linkIsUp_append {d : DevId} {log l : List (Time × Ev)} (hl : ∀ t c i, (t, Ev.attachRet d c i) ∉ l)
    (hs : ∀ (c : ChanId) (slot : Nat), (slots c (log ++ l))[slot]? = some d ↔ (slots c log)[slot]? = some d) :
    LinkIsUp d (log ++ l) ↔ LinkIsUp d log ∧
      ∀ t c slot, (t, Ev.detachRet c slot true) ∈ l → (slots c log)[slot]? ≠ some d := by
  constructor
  · rintro ⟨l1, t, c, i, l2, h1, h2⟩
    rcases List.append_eq_append_iff.mp h1 with ⟨a, ha, hb⟩ | ⟨a, ha, hb⟩
    · exact absurd (by rw [hb]; simp) (hl t c i)
    · cases a with
      | nil =>
        simp only [List.nil_append] at hb
        exact absurd (by rw [← hb]; simp) (hl t c i)
      | cons x a =>
        simp only [List.cons_append, List.cons.injEq] at hb
        obtain ⟨rfl, rfl⟩ := hb
        refine ⟨⟨l1, t, c, i, a, ha, ?_⟩, ?_⟩
        · intro t' c' slot hm hq
          exact h2 t' c' slot (by simp [hm]) ((hs c' slot).mpr hq)
        · intro t' c' slot hm hq
          exact h2 t' c' slot (by simp [hm]) ((hs c' slot).mpr hq)
  · rintro ⟨⟨l1, t, c, i, l2, rfl, h2⟩, h3⟩
    refine ⟨l1, t, c, i, l2 ++ l, by simp, ?_⟩
    intro t' c' slot hm hq
    rw [hs] at hq
    rcases List.mem_append.mp hm with hm | hm
    · exact h2 t' c' slot hm hq
    · exact h3 t' c' slot hm hq

/-- Facts about links that hold in every reachable state. -/
structure LinkInv (s : Sys) : Prop where
  link : ∀ c, (s.chan c).link = slots c s.log
  ids : ∀ c, handedIds c s.log = (slots c s.log).zipIdx.map fun x => (x.2, x.1)
  up : ∀ d, (s.dev d).linkUp = true ↔ LinkIsUp d s.log
  member : ∀ d, (s.dev d).linkUp = true → ∃ c, (s.dev d).chan = some c ∧ d ∈ members c s.log
  last : ∀ d c, (s.dev d).chan = some c → ((s.dev d).chanSlot, d) ∈ handedIds c s.log

theorem linkInv_initial {s : Sys} (h : Initial s) : LinkInv s := by
  refine ⟨?_, ?_, ?_, ?_, ?_⟩
  · intro c; rw [(h.chans c).1, h.log]; rfl
  · intro c; rw [h.log]; rfl
  · intro d
    rw [(h.idle d).2.2.2.1, h.log]
    refine iff_of_false (by simp) ?_
    rintro ⟨l1, t, c, i, l2, h1, _⟩
    cases l1 <;> cases h1
  · intro d hd; rw [(h.idle d).2.2.2.1] at hd; cases hd
  · intro d c hd; rw [(h.idle d).2.2.2.2] at hd; cases hd

theorem handedIds_append (c : ChanId) (log l : List (Time × Ev)) :
    handedIds c (log ++ l) = handedIds c log ++ handedIds c l := by
  unfold handedIds; rw [List.filterMap_append]

theorem handedIds_free {c : ChanId} {l : List (Time × Ev)} (h : ∀ e ∈ l, ∀ d c i, e.2 ≠ .attachRet d c i) :
    handedIds c l = [] := by
  unfold handedIds
  rw [List.filterMap_eq_nil_iff]
  rintro ⟨t, e⟩ he
  have := h _ he
  cases e <;> first | rfl | exact absurd rfl (this _ _ _)

theorem linkInv_quiet {s s' : Sys} (hi : LinkInv s) (hq : LinkQuiet s s') : LinkInv s' := by
  obtain ⟨⟨l, hlog, hl⟩, hdev, hch⟩ := hq
  have hro : ∀ c, roster c s'.log = roster c s.log := fun c => by
    rw [hlog]; exact roster_append_free fun e he => (hl e he).roster
  have hs : ∀ c, slots c s'.log = slots c s.log := fun c => by unfold slots; rw [hro]
  have hid : ∀ c, handedIds c s'.log = handedIds c s.log := fun c => by
    rw [hlog, handedIds_append, handedIds_free (l := l), List.append_nil]
    rintro e he d c i h
    have := hl e he
    rw [h] at this; exact this
  refine ⟨?_, ?_, ?_, ?_, ?_⟩
  · intro c; rw [hch, hs, hi.link]
  · intro c; rw [hid, hs, hi.ids]
  · intro d
    rw [(hdev d).1, hi.up]
    conv_rhs => rw [hlog]
    rw [linkIsUp_append]
    · refine ⟨fun h => ⟨h, ?_⟩, fun h => h.1⟩
      intro t c slot hm
      have := hl _ hm
      exact absurd this (by simp [LinkFreeEv])
    · intro t c i hm
      have := hl _ hm
      exact absurd this (by simp [LinkFreeEv])
    · intro c slot; rw [← hlog, hs]
  · intro d hd
    rw [(hdev d).1] at hd
    obtain ⟨c, h1, h2⟩ := hi.member d hd
    refine ⟨c, by rw [(hdev d).2.1]; exact h1, ?_⟩
    unfold members; rw [hro]; exact h2
  · intro d c hd
    rw [(hdev d).2.1] at hd
    rw [hid, (hdev d).2.2]
    exact hi.last d c hd

theorem linkInv_attach {s s' : Sys} {x : DevId} {c : ChanId} (hi : LinkInv s) (h : attach s x c = .ok s') : LinkInv s' := by
  obtain ⟨g, t, _, rfl⟩ := attach_ok h
  have hro : ∀ c', slots c' (s.log ++ [(s.now, .linkChange x), (s.now, .attachRet x c (s.chan c).link.length)]) =
      if c = c' then slots c' s.log ++ [x] else slots c' s.log := by
    intro c'
    unfold slots
    rw [roster_attach]
    split <;> rfl
  have hme : ∀ d c', d ∈ members c' s.log →
      d ∈ members c' (s.log ++ [(s.now, .linkChange x), (s.now, .attachRet x c (s.chan c).link.length)]) := by
    intro d c' hd
    unfold members
    rw [roster_attach]
    split
    · simp only
      split
      · exact hd
      · exact List.mem_append_left _ hd
    · exact hd
  have hid : ∀ c', handedIds c' (s.log ++ [(s.now, .linkChange x), (s.now, .attachRet x c (s.chan c).link.length)]) =
      handedIds c' s.log ++ if c = c' then [((slots c' s.log).length, x)] else [] := by
    intro c'
    rw [handedIds_append]
    congr 1
    unfold handedIds
    by_cases hc : c = c'
    · subst hc; simp [hi.link]
    · simp [hc]
  refine ⟨?_, ?_, ?_, ?_, ?_⟩
  · intro c'
    simp only
    rw [hro]
    by_cases hc : c' = c
    · subst hc; simp [hi.link]
    · rw [if_neg hc, if_neg (Ne.symm hc), hi.link]
  · intro c'
    simp only
    rw [hid, hro, hi.ids]
    split
    · rw [List.zipIdx_append]; simp
    · simp
  · intro d
    simp only
    by_cases hd : d = x
    · subst hd
      simp only [if_true, true_iff]
      exact ⟨s.log ++ [(s.now, .linkChange d)], s.now, c, (s.chan c).link.length, [], by simp, by simp⟩
    · rw [if_neg hd, hi.up, linkIsUp_append]
      · refine ⟨fun h => ⟨h, ?_⟩, fun h => h.1⟩
        intro t c slot hm
        simp at hm
      · intro t c' i hm
        simp at hm
        exact hd hm.2.1
      · intro c' slot
        rw [hro]
        split
        · rw [List.getElem?_append]
          split
          · exact Iff.rfl
          · rename_i hlt
            have hnone : (slots c' s.log)[slot]? = none := List.getElem?_eq_none (by omega)
            refine iff_of_false ?_ (by rw [hnone]; simp)
            intro hq
            have := List.mem_of_getElem? hq
            simp at this
            exact hd this
        · exact Iff.rfl
  · intro d hd
    simp only at hd ⊢
    by_cases hx : d = x
    · subst hx
      refine ⟨c, by simp, ?_⟩
      unfold members
      rw [roster_attach, if_pos rfl]
      simp only
      split
      · assumption
      · simp
    · rw [if_neg hx] at hd ⊢
      obtain ⟨c', h1, h2⟩ := hi.member d hd
      exact ⟨c', h1, hme d c' h2⟩
  · intro d c' hd
    simp only at hd ⊢
    rw [hid]
    by_cases hx : d = x
    · subst hx
      rw [if_pos rfl] at hd ⊢
      injection hd with hd
      subst hd
      rw [if_pos rfl, hi.link]
      simp
    · rw [if_neg hx] at hd ⊢
      exact List.mem_append_left _ (hi.last d c' hd)

theorem linkInv_detach {s s' : Sys} {c : ChanId} {slot : Nat} (hi : LinkInv s) (h : detach s c slot = .ok s') :
    LinkInv s' := by
  obtain ⟨g, t, r, l, _, hl, hlog, hch, _, hdown, hr⟩ := detach_view h
  have hsl : ∀ c', slots c' s'.log = slots c' s.log := by
    intro c'
    unfold slots
    rw [hlog, roster_detach hl]
    split <;> rfl
  have hfree : ∀ d c' i t, (t, Ev.attachRet d c' i) ∉ l ++ [(s.now, Ev.detachRet c slot r)] := by
    intro d c' i t hm
    rcases List.mem_append.mp hm with hm | hm
    · exact hl _ hm
    · simp at hm
  have hid : ∀ c', handedIds c' s'.log = handedIds c' s.log := by
    intro c'
    rw [hlog, handedIds_append, handedIds_free (l := l ++ [(s.now, Ev.detachRet c slot r)]), List.append_nil]
    rintro ⟨t, e⟩ he d c i h
    simp only at h
    subst h
    exact hfree _ _ _ _ he
  have hdev : ∀ d, (s'.dev d).chan = (s.dev d).chan ∧ (s'.dev d).chanSlot = (s.dev d).chanSlot ∧
      ((s'.dev d).linkUp = true ↔ (s.dev d).linkUp = true ∧ (s.chan c).link[slot]? ≠ some d) := by
    intro d
    obtain ⟨g', t', _, hcase⟩ := detach_ok h
    rcases hcase with ⟨y, hy, _, rfl⟩ | ⟨hy, rfl⟩
    · by_cases hd : d = y
      · subst hd; simp [hy]
      · simp only [if_neg hd, hy, ne_eq, Option.some.injEq, true_and]
        exact ⟨fun h => ⟨h, fun k => hd k.symm⟩, fun h => h.1⟩
    · refine ⟨rfl, rfl, ?_⟩
      simp only
      exact ⟨fun h => ⟨h, fun k => by rw [hy d k] at h; cases h⟩, fun h => h.1⟩
  refine ⟨?_, ?_, ?_, ?_, ?_⟩
  · intro c'
    rw [hsl, ← hi.link, hch]
    by_cases hc : c' = c
    · subst hc; simp
    · simp [hc]
  · intro c'; rw [hid, hsl, hi.ids]
  · intro d
    rw [(hdev d).2.2, hi.up]
    conv_rhs => rw [hlog]
    rw [linkIsUp_append (fun t c' i => hfree d c' i t) (fun c' k => by rw [← hlog, hsl])]
    refine and_congr_right fun hup => ?_
    constructor
    · intro hne t' c' slot' hm hq
      rcases List.mem_append.mp hm with hm | hm
      · exact hl _ hm
      · simp only [List.mem_singleton, Prod.mk.injEq, Ev.detachRet.injEq] at hm
        obtain ⟨_, rfl, rfl, _⟩ := hm
        rw [← hi.link] at hq
        exact hne hq
    · intro hall hq
      refine hall s.now c slot ?_ (by rw [← hi.link]; exact hq)
      have : r = true := hr.mpr ⟨d, hq, (hi.up d).mpr hup⟩
      rw [this]; simp
  · intro d hd
    obtain ⟨h1, h2⟩ := (hdev d).2.2.mp hd
    obtain ⟨c', h3, h4⟩ := hi.member d h1
    refine ⟨c', by rw [(hdev d).1]; exact h3, ?_⟩
    unfold members
    rw [hlog, roster_detach hl]
    split
    · rename_i hc; subst hc
      simp only
      split
      · rename_i y hy
        rw [List.mem_filter]
        refine ⟨h4, ?_⟩
        rw [← hi.link] at hy
        simp only [decide_eq_true_eq]
        rintro rfl
        exact h2 hy
      · exact h4
    · exact h4
  · intro d c' hd
    rw [(hdev d).1] at hd
    rw [hid, (hdev d).2.1]
    exact hi.last d c' hd

theorem linkInv_step {E : Env} {s s' : Sys} {op : Op} (hi : LinkInv s) (h : step E s op = .ok s') : LinkInv s' := by
  rcases linkQuiet_step h with hq | ⟨d, c, rfl⟩ | ⟨c, slot, rfl⟩
  · exact linkInv_quiet hi hq
  · exact linkInv_attach hi h
  · exact linkInv_detach hi h

theorem linkInv_exec {E : Env} {s s' : Sys} {ops : List Op} (h0 : Initial s) (h : exec E s ops = .ok s') : LinkInv s' :=
  exec_induct (P := LinkInv) (fun _ _ _ hP hs => linkInv_step hP hs) (linkInv_initial h0) h

end Verif
