import Verif.Lemmas.ChannelTrace3
/-! Devices attached while a frame is being delivered; no receiver of the frame is lost. -/

namespace Verif
open Spec

variable {D : List DevId}

/-! ### Connected code that only adds -/

/-- Nothing a frame of `src` depends on is taken away. -/
structure Keeps (D : List DevId) (src : DevId) (s t : Sys) : Prop where
  now : t.now = s.now
  node : ∀ x, (t.dev x).node = (s.dev x).node
  addr : ∀ x, (t.dev x).addr = (s.dev x).addr
  power : (t.dev src).txPower = (s.dev src).txPower
  pending : ∀ q ∈ s.pending, q ∈ t.pending
  gnd : ∀ c, ∀ x ∈ (s.chan c).gnd, x ∈ (t.chan c).gnd
  sat : ∀ c, ∀ x ∈ (s.chan c).sat, x ∈ (t.chan c).sat
  link : ∀ c, (s.chan c).link <+: (t.chan c).link
  keyed : Keyed D s → Keyed D t

theorem Keeps.refl (D : List DevId) (src : DevId) (s : Sys) : Keeps D src s s :=
  ⟨rfl, fun _ => rfl, fun _ => rfl, rfl, fun _ h => h, fun _ _ h => h, fun _ _ h => h, fun _ => List.prefix_refl _, id⟩

theorem Keeps.trans {src : DevId} {s t u : Sys} (h1 : Keeps D src s t) (h2 : Keeps D src t u) : Keeps D src s u :=
  ⟨h2.now.trans h1.now, fun x => (h2.node x).trans (h1.node x), fun x => (h2.addr x).trans (h1.addr x),
    h2.power.trans h1.power, fun q h => h2.pending q (h1.pending q h), fun c x h => h2.gnd c x (h1.gnd c x h),
    fun c x h => h2.sat c x (h1.sat c x h), fun c => (h1.link c).trans (h2.link c), fun h => h2.keyed (h1.keyed h)⟩

theorem keeps_log {src : DevId} {s : Sys} {l : List (Time × Ev)} : Keeps D src s { s with log := l } :=
  ⟨rfl, fun _ => rfl, fun _ => rfl, rfl, fun _ h => h, fun _ _ h => h, fun _ _ h => h, fun _ => List.prefix_refl _,
    fun h => ⟨h.gnd, h.sat, h.gndKey, h.satKey, h.unique⟩⟩

theorem keeps_emit {src : DevId} {s : Sys} {e : Ev} : Keeps D src s (s.emit e) := keeps_log

theorem keeps_addRecvs {src : DevId} {s : Sys} {c : ChanId} {f : Bytes} {d : DevId} {t : Time} {rs : List Recv} :
    Keeps D src s (addRecvs s c f d t rs) :=
  ⟨rfl, fun _ => rfl, fun _ => rfl, rfl, fun _ h => mem_insertAll.mpr (Or.inr h), fun _ _ h => h, fun _ _ h => h,
    fun _ => List.prefix_refl _, fun h => ⟨h.gnd, h.sat, h.gndKey, h.satKey, h.unique⟩⟩

theorem keeps_setDev {src : DevId} {s : Sys} {d : DevId} {v : Dev} (hn : v.node = (s.dev d).node)
    (ha : v.addr = (s.dev d).addr) (hp : d = src → v.txPower = (s.dev d).txPower) : Keeps D src s (s.setDev d v) := by
  have haddr : ∀ x, ((s.setDev d v).dev x).addr = (s.dev x).addr := by
    intro x
    by_cases hx : x = d
    · subst hx; simp [Sys.setDev, ha]
    · simp [Sys.setDev, hx]
  refine ⟨rfl, ?_, haddr, ?_, fun _ h => h, fun _ _ h => h, fun _ _ h => h, fun _ => List.prefix_refl _, ?_⟩
  · intro x
    by_cases hx : x = d
    · subst hx; simp [Sys.setDev, hn]
    · simp [Sys.setDev, hx]
  · by_cases hx : src = d
    · subst hx; simp [Sys.setDev, hp rfl]
    · simp [Sys.setDev, hx]
  · intro h
    refine ⟨h.gnd, h.sat, ?_, ?_, ?_⟩
    · intro c x hx; rw [haddr]; exact h.gndKey c x hx
    · intro c x hx; rw [haddr]; exact h.satKey c x hx
    · intro x hx y hy hxy; rw [haddr, haddr] at hxy; exact h.unique x hx y hy hxy

/-- Connected code that only adds. -/
def Adds (D : List DevId) (src : DevId) (k : Sys → Outcome Sys) : Prop := ∀ s s', Keyed D s → k s = .ok s' → Keeps D src s s'

theorem mapInsert_keeps {s : Sys} (hs : Keyed D s) {d : DevId} (hd : d ∈ D) {m : List (Mac48 × DevId)} (hm : SortedKeys m)
    (hk : ∀ x ∈ m, x.2 ∈ D ∧ x.1 = (s.dev x.2).addr) :
    (∀ x ∈ m, x ∈ mapInsert (s.dev d).addr d m) ∧ SortedKeys (mapInsert (s.dev d).addr d m) ∧
      ∀ x ∈ mapInsert (s.dev d).addr d m, x.2 ∈ D ∧ x.1 = (s.dev x.2).addr := by
  refine ⟨?_, sorted_mapInsert hm, ?_⟩
  · rintro ⟨b, y⟩ hx
    have hb : b = (s.dev y).addr := (hk _ hx).2
    rw [mem_mapInsert hm]
    by_cases hbd : b = (s.dev d).addr
    · exact Or.inl ⟨hbd, hs.unique y (hk _ hx).1 d hd (hb ▸ hbd)⟩
    · exact Or.inr ⟨hbd, hx⟩
  · rintro ⟨b, y⟩ hx
    rcases (mem_mapInsert hm).mp hx with ⟨rfl, rfl⟩ | ⟨_, hx⟩
    · exact ⟨hd, rfl⟩
    · exact hk _ hx

theorem attachK_adds {src : DevId} {k : Sinks} (hk : ∀ h, Adds D src (k h)) {d : DevId} (hd : d ∈ D) {c : ChanId} {s s' : Sys} (hs : Keyed D s)
    (h : attachK k s d c = .ok s') : Keeps D src s s' := by
  have up : ∀ (g' t' : List (Mac48 × DevId)), (∀ x ∈ (s.chan c).gnd, x ∈ g') → (∀ x ∈ (s.chan c).sat, x ∈ t') → SortedKeys g' →
      SortedKeys t' → (∀ x ∈ g', x.2 ∈ D ∧ x.1 = (s.dev x.2).addr) → (∀ x ∈ t', x.2 ∈ D ∧ x.1 = (s.dev x.2).addr) →
      ((k .linkChange (((s.setChan c { s.chan c with gnd := g', sat := t', link := (s.chan c).link ++ [d] }).setDev d
        { s.dev d with chan := some c, chanSlot := (s.chan c).link.length, linkUp := true }).emit (.linkChange d))) >>=
        fun s1 => .ok (s1.emit (.attachRet d c (s.chan c).link.length))) = .ok s' → Keeps D src s s' := by
    intro g' t' hg ht hsg hst hkg hkt h
    have h0 : Keeps D src s (s.setChan c { s.chan c with gnd := g', sat := t', link := (s.chan c).link ++ [d] }) := by
      refine ⟨rfl, fun _ => rfl, fun _ => rfl, rfl, fun _ h => h, ?_, ?_, ?_, ?_⟩
      · intro c' x hx
        by_cases hc : c' = c
        · subst hc; simp only [Sys.setChan, if_true]; exact hg x hx
        · simp only [Sys.setChan, hc, if_false]; exact hx
      · intro c' x hx
        by_cases hc : c' = c
        · subst hc; simp only [Sys.setChan, if_true]; exact ht x hx
        · simp only [Sys.setChan, hc, if_false]; exact hx
      · intro c'
        by_cases hc : c' = c
        · subst hc; simp only [Sys.setChan, if_true]; exact List.prefix_append _ _
        · simp only [Sys.setChan, hc, if_false]; exact List.prefix_refl _
      · intro hs
        refine ⟨?_, ?_, ?_, ?_, hs.unique⟩
        · intro c'
          by_cases hc : c' = c
          · subst hc; simp only [Sys.setChan, if_true]; exact hsg
          · simp only [Sys.setChan, hc, if_false]; exact hs.gnd c'
        · intro c'
          by_cases hc : c' = c
          · subst hc; simp only [Sys.setChan, if_true]; exact hst
          · simp only [Sys.setChan, hc, if_false]; exact hs.sat c'
        · intro c' x hx
          by_cases hc : c' = c
          · subst hc; simp only [Sys.setChan, if_true] at hx ⊢; exact hkg x hx
          · simp only [Sys.setChan, hc, if_false] at hx ⊢; exact hs.gndKey c' x hx
        · intro c' x hx
          by_cases hc : c' = c
          · subst hc; simp only [Sys.setChan, if_true] at hx ⊢; exact hkt x hx
          · simp only [Sys.setChan, hc, if_false] at hx ⊢; exact hs.satKey c' x hx
    rw [Outcome.bind_eq_ok] at h
    obtain ⟨s1, h1, h2⟩ := h
    injection h2 with h2
    subst h2
    have h3 := (h0.trans (keeps_setDev (src := src) (d := d)
      (v := { s.dev d with chan := some c, chanSlot := (s.chan c).link.length, linkUp := true }) rfl rfl (fun _ => rfl))).trans
      (keeps_emit (e := .linkChange d))
    exact (h3.trans (hk _ _ _ (h3.keyed hs) h1)).trans keeps_emit
  have gI := mapInsert_keeps hs hd (hs.gnd c) (hs.gndKey c)
  have sI := mapInsert_keeps hs hd (hs.sat c) (hs.satKey c)
  unfold attachK at h
  simp only at h
  split at h
  · exact up (s.chan c).gnd (s.chan c).sat (fun _ h => h) (fun _ h => h) (hs.gnd c) (hs.sat c) (hs.gndKey c) (hs.satKey c) h
  · split at h
    · cases h
    · split at h
      · exact up _ _ gI.1 (fun _ h => h) gI.2.1 (hs.sat c) gI.2.2 (hs.satKey c) h
      · exact up _ _ (fun _ h => h) sI.1 (hs.gnd c) sI.2.1 (hs.gndKey c) sI.2.2 h

theorem confK_adds {E : Env} {src : DevId} {k : Sinks} (hk : ∀ h, Adds D src (k h)) {its : Iters} {op : Op} {s s' : Sys}
    (hop : Op.grows D src op = true) (hs : Keyed D s) (h : confK E k its s op = .ok s') : Keeps D src s s' := by
  have set : ∀ (d : DevId) (v : Dev), Outcome.ok (s.setDev d v) = .ok s' → v.node = (s.dev d).node →
      v.addr = (s.dev d).addr → (d = src → v.txPower = (s.dev d).txPower) → Keeps D src s s' := by
    intro d v h4 h1 h2 h3
    injection h4 with h4
    subst h4
    exact keeps_setDev h1 h2 h3
  cases op with
  | attach d c => exact attachK_adds hk (by simpa [Op.grows] using hop) hs h
  | sendFrom d p src' dest proto =>
    injection h with h
    subst h
    exact keeps_emit
  | setTxPower d p =>
    have hd : d ≠ src := by simpa [Op.grows] using hop
    exact set _ _ h rfl rfl (fun h => absurd h hd)
  | setSide d _ => exact set _ _ h rfl rfl (fun _ => rfl)
  | setRate d _ => exact set _ _ h rfl rfl (fun _ => rfl)
  | setGap d _ => exact set _ _ h rfl rfl (fun _ => rfl)
  | setMtu d _ => exact set _ _ h rfl rfl (fun _ => rfl)
  | setRxThreshold d _ => exact set _ _ h rfl rfl (fun _ => rfl)
  | setRxGain d _ => exact set _ _ h rfl rfl (fun _ => rfl)
  | setRxLoss d _ => exact set _ _ h rfl rfl (fun _ => rfl)
  | setPromisc d _ => exact set _ _ h rfl rfl (fun _ => rfl)
  | send _ _ _ _ => simp [Op.grows] at hop
  | detach _ _ => simp [Op.grows] at hop
  | setAddress _ _ => simp [Op.grows] at hop
  | run => simp [Op.grows] at hop
  | wait _ => simp [Op.grows] at hop

mutual
theorem sendI_adds {E : Env} {src : DevId} (c : Call) (its : Iters) (hq : quietCall c = true)
    (hg : avoids (fun op => !Op.grows D src op) c = true) : Adds D src (sendI E c its) := by
  intro s s' hs h
  match c with
  | .mk .. => rw [quietCall] at hq; cases hq
  | .conf op sc =>
    rw [quietCall, Bool.and_eq_true] at hq
    rw [avoids, Bool.and_eq_true, Bool.not_not] at hg
    rw [sendI] at h
    exact confK_adds (fun h => sinksI_adds sc its hq.2 hg.2 h) hg.1 hs h
theorem sinksI_adds {E : Env} {src : DevId} (sc : Script) (its : Iters) (hq : quietScript sc = true)
    (hg : avoidsS (fun op => !Op.grows D src op) sc = true) (hook : Hook) : Adds D src (sinksI E hook sc its) := by
  intro s s' hs h
  match sc with
  | .nil =>
    rw [sinksI] at h
    injection h with h
    subst h
    exact Keeps.refl _ _ _
  | .cons h' c rest =>
    rw [quietScript, Bool.and_eq_true] at hq
    rw [avoidsS, Bool.and_eq_true] at hg
    rw [sinksI] at h
    split at h
    · rw [Outcome.bind_eq_ok] at h
      obtain ⟨s1, h1, h2⟩ := h
      have e1 := sendI_adds c (hook.iters its) hq.1 hg.1 s s1 hs h1
      exact e1.trans (sinksI_adds rest its hq.2 hg.2 hook s1 s' (e1.keyed hs) h2)
    · exact sinksI_adds rest its hq.2 hg.2 hook s s' hs h
end

/-! ### No receiver is lost -/

theorem deliverK_adds {E : Env} {src : DevId} {k : Sys → Outcome Sys} (hk : Adds D src k) {s s' : Sys} {c : ChanId} {f : Bytes}
    {dst : DevId} {t : Time} {b : Bool} (hs : Keyed D s) (h : deliverK E k s c f src dst t = .ok (s', b)) :
    Keeps D src s s' ∧ ∀ r, recvOf E s c src t dst = some r → r.pend s.now f src ∈ s'.pending := by
  unfold deliverK at h
  rw [Outcome.bind_eq_ok] at h
  obtain ⟨⟨s1, ok⟩, h1, h2⟩ := h
  obtain ⟨rfl, rfl⟩ := deliver_ok h1
  have hin : ∀ r, recvOf E s c src t dst = some r →
      r.pend s.now f src ∈ (addRecvs s c f src t (recvOf E s c src t dst).toList).pending := by
    intro r hr
    refine mem_insertAll.mpr (Or.inl ?_)
    rw [hr]
    exact List.mem_singleton.mpr rfl
  simp only at h2
  split at h2
  · rw [Outcome.bind_eq_ok] at h2
    obtain ⟨s2, h3, h4⟩ := h2
    injection h4 with h4
    injection h4 with h4 _
    subst h4
    have e1 : Keeps D src s (addRecvs s c f src t (recvOf E s c src t dst).toList) := keeps_addRecvs
    have e2 := hk _ _ (e1.keyed hs) h3
    exact ⟨e1.trans e2, fun r hr => e2.pending _ (hin r hr)⟩
  · injection h2 with h2
    injection h2 with h2 _
    subst h2
    exact ⟨keeps_addRecvs, hin⟩

theorem keeps_recv {E : Env} {src : DevId} {s s' : Sys} (h : Keeps D src s s') {c : ChanId} {t : Time} {dst : DevId} :
    recvOf E s' c src t dst = recvOf E s c src t dst :=
  recvOf_same h.now (h.node _) h.power (h.node _)

theorem keeps_dests {src : DevId} {s s' : Sys} (h : Keeps D src s s') {c : ChanId} {g : Bool} :
    ∀ x ∈ (s.chan c).dests g, x ∈ (s'.chan c).dests g := by
  cases g
  · exact h.gnd c
  · exact h.sat c

theorem leoLoopK_adds {E : Env} {src : DevId} {k : Sinks} (hk : ∀ h, Adds D src (k h)) {c : ChanId} {g : Bool} {f : Bytes} {t : Time}
    (n : Nat) : ∀ (i : Nat) (rest : List (Mac48 × DevId)) (s s' : Sys) (r b : Bool), Keyed D s → SortedKeys rest →
    (∀ x ∈ rest, x ∈ (s.chan c).dests g) → leoLoopK E k c g f src t n i rest s r = .ok (s', b) →
    Keeps D src s s' ∧ ∀ x ∈ rest, ∀ r, recvOf E s c src t x.2 = some r → r.pend s.now f src ∈ s'.pending := by
  have stay : ∀ (s s' : Sys) (r b : Bool), (Outcome.ok (s, r) : Outcome (Sys × Bool)) = .ok (s', b) → Keeps D src s s' := by
    intro s s' r b h
    injection h with h
    injection h with h _
    subst h
    exact Keeps.refl _ _ _
  induction n with
  | zero =>
    intro i rest s s' r b hs hso hin h
    cases rest with
    | nil => exact ⟨stay _ _ _ _ h, by simp⟩
    | cons x rest => cases h
  | succ n ih =>
    intro i rest s s' r b hs hso hin h
    cases rest with
    | nil => exact ⟨stay _ _ _ _ h, by simp⟩
    | cons x rest =>
      obtain ⟨a, d⟩ := x
      rw [leoLoopK, Outcome.bind_eq_ok] at h
      obtain ⟨⟨s1, ok⟩, h1, h2⟩ := h
      obtain ⟨e1, p1⟩ := deliverK_adds (hk _) hs h1
      have hs1 := e1.keyed hs
      have hso1 : SortedKeys ((s1.chan c).dests g) := by
        cases g
        · exact hs1.gnd c
        · exact hs1.sat c
      have hsub : ∀ x ∈ rest, x ∈ restAfter ((s.chan c).dests g) ((s1.chan c).dests g) rest a := by
        intro x hx
        unfold restAfter
        split
        · exact hx
        · rw [List.mem_filter]
          exact ⟨keeps_dests e1 x (hin x (by simp [hx])), by simpa using (List.pairwise_cons.mp hso).1 x hx⟩
      have hin1 : ∀ x ∈ restAfter ((s.chan c).dests g) ((s1.chan c).dests g) rest a, x ∈ (s1.chan c).dests g := by
        intro x hx
        unfold restAfter at hx
        split at hx
        · exact keeps_dests e1 x (hin x (by simp [hx]))
        · exact (List.mem_filter.mp hx).1
      obtain ⟨e2, p2⟩ := ih _ _ _ _ _ _ hs1 (TCtx.restAfter_sorted hso hso1) hin1 h2
      refine ⟨e1.trans e2, ?_⟩
      intro x hx r hr
      rcases List.mem_cons.mp hx with rfl | hx
      · exact e2.pending _ (p1 r hr)
      · rw [← e1.now]
        exact p2 x (hsub x hx) r ((keeps_recv e1).trans hr)

theorem islLoopK_adds {E : Env} {src : DevId} {k : Sinks} (hk : ∀ h, Adds D src (k h)) {c : ChanId} {f : Bytes} {slot : Nat} {t : Time}
    (n : Nat) : ∀ (i : Nat) (s s' : Sys), Keyed D s → islLoopK E k c f src slot t n i s = .ok s' →
    Keeps D src s s' ∧ ∀ j x, i ≤ j → j ≠ slot → (s.chan c).link[j]? = some x → ∀ r, recvOf E s c src t x = some r →
      r.pend s.now f src ∈ s'.pending := by
  induction n with
  | zero =>
    intro i s s' hs h
    rw [islLoopK] at h
    split at h
    · rename_i hl
      injection h with h
      subst h
      refine ⟨Keeps.refl _ _ _, ?_⟩
      intro j x hij _ hj
      have h1 := List.getElem?_eq_none_iff.mp hl
      have h2 := (List.getElem?_eq_some_iff.mp hj).1
      omega
    · cases h
  | succ n ih =>
    intro i s s' hs h
    rw [islLoopK] at h
    split at h
    · rename_i hl
      injection h with h
      subst h
      refine ⟨Keeps.refl _ _ _, ?_⟩
      intro j x hij _ hj
      have h1 := List.getElem?_eq_none_iff.mp hl
      have h2 := (List.getElem?_eq_some_iff.mp hj).1
      omega
    · rename_i d hd
      simp only at h
      split at h
      · rename_i his
        obtain ⟨e, p⟩ := ih _ _ _ hs h
        refine ⟨e, fun j x hij hjs hj r hr => p j x (by omega) hjs hj r hr⟩
      · rw [Outcome.bind_eq_ok] at h
        obtain ⟨⟨s1, ok⟩, h1, h2⟩ := h
        obtain ⟨e1, p1⟩ := deliverK_adds (hk _) hs h1
        obtain ⟨e2, p2⟩ := ih _ _ _ (e1.keyed hs) h2
        refine ⟨e1.trans e2, ?_⟩
        intro j x hij hjs hj r hr
        by_cases hji : j = i
        · subst hji
          rw [hd] at hj
          injection hj with hj
          subst hj
          exact e2.pending _ (p1 r hr)
        · rw [← e1.now]
          refine p2 j x (by omega) hjs ?_ r ((keeps_recv e1).trans hr)
          obtain ⟨l, hl⟩ := e1.link c
          rw [← hl, List.getElem?_append_left (List.getElem?_eq_some_iff.mp hj).1]
          exact hj

theorem chanTransmitK_adds {E : Env} {k : Sinks} {c : ChanId} {f : Bytes} {slot : Nat} {dest : Addr} {t : Time} {s s1 s2 : Sys}
    {b1 b2 : Bool} (hk : ∀ src, (s.chan c).link[slot]? = some src → ∀ h, Adds D src (k h)) (hs : Keyed D s)
    (h1 : chanTransmit E s c f slot dest t = .ok (s1, b1)) (h2 : chanTransmitK E k s c f slot dest t = .ok (s2, b2)) :
    ∀ q ∈ s1.pending, q ∈ s2.pending := by
  have same : ∀ {r r' : Bool}, (Outcome.ok (s, r) : Outcome (Sys × Bool)) = .ok (s1, b1) →
      (Outcome.ok (s, r') : Outcome (Sys × Bool)) = .ok (s2, b2) → ∀ q ∈ s1.pending, q ∈ s2.pending := by
    intro r r' h1 h2
    injection h1 with h1; injection h1 with h1 _; subst h1
    injection h2 with h2; injection h2 with h2 _; subst h2
    exact fun _ h => h
  have loop : ∀ {src : DevId}, (∀ h, Adds D src (k h)) → ∀ (g : Bool) (n : Nat) (rest : List (Mac48 × DevId)),
      rest = (s.chan c).dests g → deliverAll E c f src t (rest.map (·.2)) s false = .ok (s1, b1) →
      leoLoopK E k c g f src t n 0 rest s false = .ok (s2, b2) → ∀ q ∈ s1.pending, q ∈ s2.pending := by
    intro src hk g n rest hrest h1 h2
    have hso : SortedKeys rest := by
      rw [hrest]
      cases g
      · exact hs.gnd c
      · exact hs.sat c
    obtain ⟨e, p⟩ := leoLoopK_adds hk n _ _ _ _ _ _ hs hso (by rw [hrest]; exact fun _ h => h) h2
    obtain ⟨rfl, _⟩ := deliverAll_ok h1
    intro q hq
    rcases mem_insertAll.mp hq with hq | hq
    · obtain ⟨r, hr, rfl⟩ := List.mem_map.mp hq
      obtain ⟨y, hy, hry⟩ := List.mem_filterMap.mp hr
      obtain ⟨x, hx, rfl⟩ := List.mem_map.mp hy
      exact p x hx r hry
    · exact e.pending q hq
  unfold chanTransmit at h1
  unfold chanTransmitK at h2
  split at h1
  · rename_i hkind
    rw [hkind] at h2
    simp only at h2
    unfold leoTransmit at h1
    unfold leoTransmitK at h2
    cases hl : (s.chan c).link[slot]? with
    | none =>
      rw [hl] at h1 h2
      exact same h1 h2
    | some src =>
      rw [hl] at h1 h2
      simp only at h1 h2
      split at h1
      · cases h1
      · rename_i hb
        rw [if_neg hb] at h2
        split at h1
        · rename_i hg
          rw [if_pos hg] at h2
          exact loop (hk src hl) true _ _ rfl h1 h2
        · rename_i hg
          rw [if_neg hg] at h2
          split at h1
          · rename_i hsp
            rw [if_pos hsp] at h2
            exact loop (hk src hl) false _ _ rfl h1 h2
          · rename_i hsp
            rw [if_neg hsp] at h2
            exact same h1 h2
  · rename_i hkind
    rw [hkind] at h2
    simp only at h2
    unfold islTransmit at h1
    unfold islTransmitK at h2
    cases hl : (s.chan c).link[slot]? with
    | none =>
      rw [hl] at h1 h2
      exact same h1 h2
    | some src =>
      rw [hl] at h1 h2
      simp only at h1 h2
      cases hf : findByAddr s dest (s.chan c).link with
      | some dst =>
        rw [hf] at h1 h2
        simp only at h1 h2
        obtain ⟨e, p⟩ := deliverK_adds (hk src hl _) hs h2
        obtain ⟨rfl, _⟩ := deliver_ok h1
        intro q hq
        rcases mem_insertAll.mp hq with hq | hq
        · obtain ⟨r, hr, rfl⟩ := List.mem_map.mp hq
          exact p r (by simpa using hr)
        · exact e.pending q hq
      | none =>
        rw [hf] at h1 h2
        simp only at h1 h2
        cases dest with
        | other => cases h1
        | mac m =>
          simp only at h1 h2
          split at h1
          · rename_i hm
            rw [if_pos hm] at h2
            rw [Outcome.bind_eq_ok] at h1 h2
            obtain ⟨t1, h1, h1'⟩ := h1
            obtain ⟨t2, h2, h2'⟩ := h2
            injection h1' with h1'; injection h1' with h1' _; subst h1'
            injection h2' with h2'; injection h2' with h2' _; subst h2'
            obtain ⟨e, p⟩ := islLoopK_adds (hk src hl) _ _ _ _ hs h2
            have := deliverOthers_ok h1
            subst this
            intro q hq
            rcases mem_insertAll.mp hq with hq | hq
            · obtain ⟨r, hr, rfl⟩ := List.mem_map.mp hq
              obtain ⟨x, hx, hrx⟩ := List.mem_filterMap.mp hr
              obtain ⟨hx1, hx2⟩ := List.mem_filter.mp hx
              have hx3 := List.mem_zipIdx_iff_getElem?.mp hx1
              exact p x.2 x.1 (by omega) (by simpa using hx2) hx3 r hrx
            · exact e.pending q hq
          · rename_i hm
            rw [if_neg hm] at h2
            exact same h1 h2

theorem sinksR_chanOnly {E : Env} {sc : Script} (h : onlyTrace sc = true) : ChanOnly (fun k t => sinksR E k sc t) := by
  intro hook hh t
  show sinksI E hook sc [] t = .ok t
  match sc with
  | .nil => rw [sinksI]
  | .cons h' c rest =>
    rw [onlyTrace, Bool.and_eq_true] at h
    rw [sinksI, if_neg]
    · exact sinksR_chanOnly (E := E) h.2 hook hh t
    · rintro rfl
      rw [show Hook.inDelivery hook.point = Hook.inDelivery hook by cases hook <;> rfl, hh] at h
      exact absurd h.1 (by decide)

end Verif
