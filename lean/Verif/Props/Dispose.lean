import Verif.Lemmas.Dispose
import Verif.Props.Address
import Verif.Lemmas.Isolation
import Verif.Demo
/-!
# C88: disposing of a device
-/

namespace Verif

open Spec

/-! ## Lemmas -/

theorem mem_audience {s : Sys} {c : ChanId} {slot : Nat} {dest : Addr} {d : DevId} (h : d ∈ audience s c slot dest) :
    (∃ a, (a, d) ∈ (s.chan c).gnd) ∨ (∃ a, (a, d) ∈ (s.chan c).sat) ∨
      ((s.chan c).kind = .isl ∧ d ∈ (s.chan c).link) := by
  unfold audience at h
  simp only at h
  split at h
  · cases h
  · split at h
    · split at h
      · obtain ⟨p, hp, rfl⟩ := List.mem_map.mp h; exact Or.inr (Or.inl ⟨p.1, hp⟩)
      · split at h
        · obtain ⟨p, hp, rfl⟩ := List.mem_map.mp h; exact Or.inl ⟨p.1, hp⟩
        · cases h
    · rename_i hk
      split at h
      · rename_i y hy
        simp only [List.mem_cons, List.not_mem_nil, or_false] at h
        subst h
        exact Or.inr (Or.inr ⟨hk, List.mem_of_find?_eq_some hy⟩)
      · split at h
        · exact Or.inr (Or.inr ⟨hk, List.mem_of_mem_eraseIdx h⟩)
        · cases h

theorem isl_step {E : Env} {s s' : Sys} {op : Op} {d : DevId} (hop : ∀ c, op ≠ .attach d c) (h : step E s op = .ok s')
    (hu : ∀ c, (s.chan c).kind = .isl → d ∉ (s.chan c).link) (c : ChanId) (hc : (s'.chan c).kind = .isl) :
    d ∉ (s'.chan c).link := by
  intro hd
  rw [kind_step h] at hc
  rcases chan_step h with h1 | ⟨y, c', rfl⟩ | ⟨c', slot, rfl⟩
  · rw [h1] at hd; exact hu c hc hd
  · obtain ⟨g, t, _, rfl⟩ := attach_ok h
    simp only at hd
    split at hd
    · rename_i hcc; subst hcc
      simp only [List.mem_append, List.mem_cons, List.not_mem_nil, or_false] at hd
      rcases hd with hd | rfl
      · exact hu c hc hd
      · exact hop c rfl
    · exact hu c hc hd
  · obtain ⟨g, t, r, l, _, _, _, hch, _⟩ := detach_view h
    rw [hch] at hd
    simp only at hd
    split at hd
    · rename_i hcc; subst hcc; exact hu c hc hd
    · exact hu c hc hd

theorem unused_step {E : Env} {s s' : Sys} {op : Op} {d : DevId} (hi : Inv s) (hw : Wired s) (hu : Unused E s d)
    (hop : ∀ c, op ≠ .attach d c) (h : step E s op = .ok s') : Unused E s' d := by
  have hn : ∀ c, NotIndexed c d s' := fun c => notIndexed_step (hop c) h ⟨hu.ground c, hu.space c⟩
  have haud : ∀ c slot dest, d ∉ audience s c slot dest := by
    intro c slot dest hm
    rcases mem_audience hm with ⟨a, ha⟩ | ⟨a, ha⟩ | ⟨h1, h2⟩
    · exact hu.ground c a ha
    · exact hu.space c a ha
    · exact hu.isl c h1 h2
  -- pending events about the device were pending before
  have hpend : ∀ p ∈ s'.pending, (∃ dest, p.act = .txComplete d dest) ∨ (∃ f src rx, p.act = .receive d f src rx) →
      p ∈ s.pending := by
    by_cases hsend : ∃ q dest proto, op = .send d q dest proto
    · obtain ⟨q, dest, proto, rfl⟩ := hsend
      rcases send_ok h with ⟨_, rfl⟩ | ⟨hlu, _⟩
      · exact fun p hp _ => hp
      · rw [hu.down] at hlu; cases hlu
    · intro p hp hact
      cases netStep_step hi hw h with
      | quiet l _ _ hpe =>
        rcases hpe with hpe | ⟨x, dest, hpe⟩
        · rw [← hpe]; exact hp
        · rw [hpe]; simp [hp]
      | recv x f src rx l _ hpe _ _ _ _ _ => rw [hpe]; simp [hp]
      | tx x f dest c rs b ps l1 l2 hchan hrs hb hps hpe hlog hl1 hl2 hd hc =>
        rw [hpe, mem_insertAll, mem_insertPending] at hp
        have hps' : ∀ q ∈ ps, q ∈ s.pending := by
          rcases hps with ⟨h1, _⟩ | ⟨_, h1, _⟩
          · rw [h1]; exact fun _ hq => hq
          · rw [h1]; intro q hq; simp [hq]
        rcases hp with hp | rfl | hp
        · obtain ⟨r, hr, rfl⟩ := List.mem_map.mp hp
          rcases hact with ⟨_, hact⟩ | ⟨_, _, _, hact⟩
          · cases hact
          · simp only [Recv.pend, Action.receive.injEq] at hact
            rw [hrs] at hr
            obtain ⟨y, hy, hr⟩ := List.mem_filterMap.mp hr
            have : r.dst = y := by
              unfold recvOf at hr
              split at hr
              · obtain ⟨z, _, rfl⟩ := Option.map_eq_some_iff.mp hr; rfl
              · cases hr
            rw [hact.1] at this
            subst this
            exact (haud _ _ _ hy).elim
        · rcases hact with ⟨dest', hact⟩ | ⟨_, _, _, hact⟩
          · simp only [Action.txComplete.injEq] at hact
            obtain ⟨rfl, -⟩ := hact
            rcases hps with ⟨_, _, p, proto, m, hs, _⟩ | ⟨_, h1, _⟩
            · exact (hsend ⟨_, _, _, hs⟩).elim
            · exact (hu.idle ⟨s'.now, .txComplete x dest⟩ (by rw [h1]; simp) dest rfl).elim
          · cases hact
        · exact hps' _ hp
  refine ⟨linkUp_step hu.down hop h, fun c => (hn c).1, fun c => (hn c).2, ?_, ?_, ?_⟩
  · exact isl_step hop h hu.isl
  · intro p hp dest hact
    exact hu.idle p (hpend p hp (Or.inl ⟨dest, hact⟩)) dest hact
  · intro p hp f src rx hact
    exact hu.clear p (hpend p hp (Or.inr ⟨f, src, rx, hact⟩)) f src rx hact

theorem unused_congr {E : Env} {s t : Sys} {d : DevId} (h1 : (s.dev d).linkUp = (t.dev d).linkUp) (h2 : s.chan = t.chan)
    (h3 : s.pending = t.pending) (hu : Unused E s d) : Unused E t d :=
  ⟨h1 ▸ hu.down, h2 ▸ hu.ground, h2 ▸ hu.space, h2 ▸ hu.isl, h3 ▸ hu.idle, h3 ▸ hu.clear⟩

theorem retire_insert (g : DevId → Bool) (s : Sys) (d : DevId) :
    (s.retire g).setDev d ((s.retire g).dev d).disposed = s.retire (fun x => if x = d then true else g x) := by
  unfold Sys.retire Sys.setDev
  simp only [Sys.mk.injEq, and_true]
  funext x
  by_cases hx : x = d
  · subst hx
    simp only [if_true]
    split <;> rfl
  · simp only [if_neg hx]

theorem tidy_exec {E : Env} : ∀ {ops : List DOp} {s : DSys} {t : Sys}, s.sys = t.retire s.gone → Inv t → Wired t →
    (∀ d, s.gone d = true → Unused E t d) → (∀ d, s.gone d = true → ∀ c, DOp.op (.attach d c) ∉ ops) → Tidy E s ops →
    (∀ s', execD E s ops = .ok s' → ∃ t', exec E t (kept ops) = .ok t' ∧ s'.sys = t'.retire s'.gone) ∧
      ∀ e, execD E s ops = .fail e → exec E t (kept ops) = .fail e
  | [], s, t, hs, _, _, _, _, _ => by
    refine ⟨fun s' h => ?_, fun e h => by cases h⟩
    injection h with h; subst h
    exact ⟨t, rfl, hs⟩
  | .dispose d :: ops, s, t, hs, hi, hw, hu, ha, ht => by
    simp only [execD, stepD, Outcome.ok_bind, kept]
    have h1 : (s.sys.setDev d (s.sys.dev d).disposed) = t.retire (fun x => if x = d then true else s.gone x) := by
      rw [hs]; exact retire_insert _ _ _
    refine tidy_exec (s := ⟨_, _⟩) h1 hi hw ?_ ?_ ?_
    · intro x hx
      simp only at hx
      by_cases hxd : x = d
      · subst hxd
        have h2 := ht [] x ops rfl
        have h3 := h2.1 s rfl
        rw [hs] at h3
        exact unused_congr (retire_linkUp _ _ _) rfl rfl h3
      · rw [if_neg hxd] at hx; exact hu x hx
    · intro x hx c
      simp only at hx
      by_cases hxd : x = d
      · subst hxd; exact (ht [] x ops rfl).2 c
      · rw [if_neg hxd] at hx; exact fun hm => ha x hx c (by simp [hm])
    · intro o1 x o2 ho
      have := ht (.dispose d :: o1) x o2 (by rw [ho]; rfl)
      exact ⟨fun s1 hs1 => this.1 s1 (by simpa only [execD, stepD, Outcome.ok_bind] using hs1), this.2⟩
  | .op o :: ops, s, t, hs, hi, hw, hu, ha, ht => by
    have hop : ∀ d c, o = .attach d c → s.gone d = false := by
      intro d c hoc
      cases hg : s.gone d with
      | false => rfl
      | true => exact (ha d hg c (by simp [hoc])).elim
    have key := step_retire (E := E) (g := s.gone) (s := t) (o := o)
      ⟨fun c p hp => by
          cases hg : s.gone p.2 with
          | false => rfl
          | true => exact ((hu p.2 hg).ground c p.1 hp).elim,
        fun c p hp => by
          cases hg : s.gone p.2 with
          | false => rfl
          | true => exact ((hu p.2 hg).space c p.1 hp).elim,
        fun c hk d hd => by
          cases hg : s.gone d with
          | false => rfl
          | true => exact ((hu d hg).isl c hk hd).elim⟩
      (fun d hd => (hu d hd).down) hw
      (fun p hp d dest hact => by
        cases hg : s.gone d with
        | false => rfl
        | true => exact ((hu d hg).idle p hp dest hact).elim)
      (fun p hp d f src rx hact hg => (hu d hg).clear p hp f src rx hact) hop
    rw [← hs] at key
    simp only [execD, stepD, kept, exec]
    cases h1 : step E t o with
    | fail e =>
      rw [key, h1]
      refine ⟨fun s' h => (by cases h), fun e' h => ?_⟩
      injection h with h; subst h; rfl
    | ok t1 =>
      rw [key, h1]
      simp only [Outcome.mapOk, Outcome.ok_bind]
      refine tidy_exec (s := ⟨_, _⟩) rfl (inv_step hi h1) (wired_step hw h1) ?_ ?_ ?_
      · intro d hd
        exact unused_step hi hw (hu d hd) (fun c hoc => by
          have := hop d c hoc
          simp only at hd
          rw [this] at hd; cases hd) h1
      · exact fun d hd c hm => ha d hd c (by simp [hm])
      · intro o1 x o2 ho
        have := ht (.op o :: o1) x o2 (by rw [ho]; rfl)
        refine ⟨fun s1 hs1 => this.1 s1 ?_, this.2⟩
        simp only [execD, stepD]
        rw [key, h1]
        exact hs1

/-! ## C88 -/

/-- **C88 (partial)**: devices that nothing refers to any more can be disposed of at any time; the rest of the simulation runs
as if they had been kept. -/
theorem C88_as_if_kept_partial {E : Env} {s0 : Sys} {s : DSys} {ops : List DOp} (h0 : Initial s0)
    (ht : Tidy E (DSys.start s0) ops) (h : execD E (DSys.start s0) ops = .ok s) :
    ∃ t, exec E s0 (kept ops) = .ok t ∧ SameBut s.gone s.sys t := by
  obtain ⟨t, h1, h2⟩ := (tidy_exec (t := s0) (s := DSys.start s0) (by rfl) (inv_initial h0) (wired_initial h0)
    (fun d hd => by cases hd) (fun d hd => by cases hd) ht).1 s h
  refine ⟨t, h1, ?_⟩
  rw [h2]
  exact ⟨fun d hd => retire_dev _ _ hd, retire_linkUp _ _, rfl, rfl, rfl, rfl⟩

/-- ... and it fails exactly if it would have failed anyway. -/
theorem C88_same_faults_partial {E : Env} {s0 : Sys} {ops : List DOp} (h0 : Initial s0) (ht : Tidy E (DSys.start s0) ops)
    (e : Fault) : execD E (DSys.start s0) ops = .fail e ↔ exec E s0 (kept ops) = .fail e := by
  have key := tidy_exec (t := s0) (s := DSys.start s0) (by rfl) (inv_initial h0) (wired_initial h0)
    (fun d hd => by cases hd) (fun d hd => by cases hd) ht
  refine ⟨key.2 e, fun h => ?_⟩
  cases hx : execD E (DSys.start s0) ops with
  | fail e' => rw [key.2 e' hx] at h; injection h with h; subst h; rfl
  | ok s =>
    obtain ⟨t, h1, _⟩ := key.1 s hx
    rw [h1] at h; cases h

/-- Where a device with a fixed address may be found. -/
structure OnlyAt (d : DevId) (c : ChanId) (a : Mac48) (s : Sys) : Prop where
  addr : (s.dev d).addr = a
  ground : ∀ c' b, (b, d) ∈ (s.chan c').gnd → c' = c ∧ b = a
  space : ∀ c' b, (b, d) ∈ (s.chan c').sat → c' = c ∧ b = a
  isl : ∀ c', (s.chan c').kind = .isl → d ∉ (s.chan c').link

theorem addr_step {E : Env} {s s' : Sys} {op : Op} {d : DevId} (hop : ∀ a, op ≠ .setAddress d a)
    (h : step E s op = .ok s') : (s'.dev d).addr = (s.dev d).addr := by
  have set : ∀ (x : DevId) (v : Dev), v.addr = (s.dev x).addr → ((s.setDev x v).dev d).addr = (s.dev d).addr := by
    intro x v hv
    by_cases hx : d = x
    · subst hx; simp [Sys.setDev, hv]
    · simp [Sys.setDev, hx]
  cases op with
  | send x p dest proto =>
    rcases send_ok h with ⟨_, rfl⟩ | ⟨hlu, _, m, _, f, hf, hcase⟩
    · rfl
    · rcases hcase with ⟨_, rfl⟩ | ⟨hlen, hb, rfl⟩ | ⟨hlen, hb, g, rest, s3, hq, hts, rfl⟩
      · rfl
      · by_cases hx : d = x <;> simp [hx]
      · obtain ⟨_, c, src, rs, b, hchan, _, _, rfl⟩ := transmitStart_ok hts
        by_cases hx : d = x <;> simp [txState, hx]
  | sendFrom x p src dest proto => injection h with h; subst h; rfl
  | attach x c =>
    obtain ⟨g, t, _, rfl⟩ := attach_ok h
    by_cases hx : d = x <;> simp [hx]
  | detach c slot => obtain ⟨g, t, r, l, _, _, _, _, ha, _⟩ := detach_view h; exact (ha d).1
  | setAddress x a =>
    cases a with
    | other => cases h
    | mac m =>
      injection h with h; subst h
      by_cases hx : d = x
      · subst hx; exact (hop _ rfl).elim
      · simp [Sys.setDev, hx]
  | run =>
    simp only [step, run] at h
    split at h
    · injection h with h; subst h; rfl
    · rename_i p ps hp
      obtain ⟨t, a⟩ := p
      cases a with
      | receive x f src rx => obtain ⟨l, hl, rfl⟩ := receive_ok h; rfl
      | txComplete x dest =>
        obtain ⟨hb, _, f, hcur, hcase⟩ := transmitComplete_ok h
        rcases hcase with ⟨hq, rfl⟩ | ⟨q, rest, hq, hts⟩
        · by_cases hx : d = x <;> simp [hx]
        · obtain ⟨_, c, src, rs, b, hchan, _, _, rfl⟩ := transmitStart_ok hts
          by_cases hx : d = x <;> simp [txState, hx]
  | wait dt =>
    simp only [step] at h
    split at h <;> (injection h with h; subst h; rfl)
  | _ => injection h with h; subst h; exact set _ _ rfl

theorem onlyAt_step {E : Env} {s s' : Sys} {op : Op} {d : DevId} {c : ChanId} {a : Mac48} (ho : OnlyAt d c a s)
    (hk : (s.chan c).kind = .leo) (h1 : ∀ b, op ≠ .setAddress d b) (h2 : ∀ c', op = .attach d c' → c' = c)
    (h : step E s op = .ok s') : OnlyAt d c a s' := by
  by_cases hop : ∃ c', op = .attach d c'
  · obtain ⟨c', rfl⟩ := hop
    obtain rfl := h2 c' rfl
    have ha := addr_step h1 h
    obtain ⟨g, t, hgt, rfl⟩ := attach_ok h
    rcases hgt with ⟨hi, _⟩ | ⟨_, _, hgt⟩
    · rw [hk] at hi; cases hi
    refine ⟨by rw [ha, ho.addr], ?_, ?_, ?_⟩
    · intro c2 b hb
      simp only at hb
      split at hb
      · rename_i hcc; subst hcc
        refine ⟨rfl, ?_⟩
        rcases hgt with ⟨_, rfl, _⟩ | ⟨_, rfl, _⟩
        · rcases of_mem_mapInsert hb with hb | hb
          · injection hb with hb _; rw [hb, ho.addr]
          · exact (ho.ground _ _ hb).2
        · exact (ho.ground _ _ hb).2
      · exact ho.ground _ _ hb
    · intro c2 b hb
      simp only at hb
      split at hb
      · rename_i hcc; subst hcc
        refine ⟨rfl, ?_⟩
        rcases hgt with ⟨_, _, rfl⟩ | ⟨_, _, rfl⟩
        · exact (ho.space _ _ hb).2
        · rcases of_mem_mapInsert hb with hb | hb
          · injection hb with hb _; rw [hb, ho.addr]
          · exact (ho.space _ _ hb).2
      · exact ho.space _ _ hb
    · intro c2 hc2 hd
      simp only at hc2 hd
      split at hc2
      · rename_i hcc; subst hcc; simp only at hc2; rw [hk] at hc2; cases hc2
      · rename_i hcc; rw [if_neg hcc] at hd; exact ho.isl c2 hc2 hd
  · have hop' : ∀ c', op ≠ .attach d c' := fun c' he => hop ⟨c', he⟩
    refine ⟨by rw [addr_step h1 h, ho.addr], ?_, ?_, isl_step hop' h ho.isl⟩
    · intro c2 b hb
      by_contra hne
      have hb' : (b, d) ∈ (s.chan c2).gnd := by
        rcases chan_step h with h1 | ⟨y, c', rfl⟩ | ⟨c', slot, rfl⟩
        · rw [← h1]; exact hb
        · obtain ⟨g, t, hgt, rfl⟩ := attach_ok h
          have hyd : d ≠ y := by rintro rfl; exact hop' c' rfl
          simp only at hb
          split at hb
          · rename_i hcc; subst hcc
            rcases hgt with ⟨_, rfl, _⟩ | ⟨_, _, ⟨_, rfl, _⟩ | ⟨_, rfl, _⟩⟩
            · exact hb
            · exact mem_mapInsert_of_ne hyd hb
            · exact hb
          · exact hb
        · obtain ⟨g, t, r, l, hgt, _, _, hch, _⟩ := detach_view h
          rw [hch] at hb
          simp only at hb
          split at hb
          · rename_i hcc; subst hcc
            rcases hgt with ⟨_, rfl, _⟩ | ⟨_, _, _, rfl, _⟩
            · exact hb
            · exact of_mem_mapErase hb
          · exact hb
      exact hne (ho.ground c2 b hb')
    · intro c2 b hb
      by_contra hne
      have hb' : (b, d) ∈ (s.chan c2).sat := by
        rcases chan_step h with h1 | ⟨y, c', rfl⟩ | ⟨c', slot, rfl⟩
        · rw [← h1]; exact hb
        · obtain ⟨g, t, hgt, rfl⟩ := attach_ok h
          have hyd : d ≠ y := by rintro rfl; exact hop' c' rfl
          simp only at hb
          split at hb
          · rename_i hcc; subst hcc
            rcases hgt with ⟨_, _, rfl⟩ | ⟨_, _, ⟨_, _, rfl⟩ | ⟨_, _, rfl⟩⟩
            · exact hb
            · exact hb
            · exact mem_mapInsert_of_ne hyd hb
          · exact hb
        · obtain ⟨g, t, r, l, hgt, _, _, hch, _⟩ := detach_view h
          rw [hch] at hb
          simp only at hb
          split at hb
          · rename_i hcc; subst hcc
            rcases hgt with ⟨_, _, rfl⟩ | ⟨_, _, _, _, rfl⟩
            · exact hb
            · exact of_mem_mapErase hb
          · exact hb
      exact hne (ho.space c2 b hb')

theorem onlyAt_exec {E : Env} {d : DevId} {c : ChanId} {a : Mac48} : ∀ {ops : List Op} {s s' : Sys}, OnlyAt d c a s →
    (s.chan c).kind = .leo → (∀ b, Op.setAddress d b ∉ ops) → (∀ c', Op.attach d c' ∈ ops → c' = c) →
    exec E s ops = .ok s' → OnlyAt d c a s' ∧ (s'.chan c).kind = .leo
  | [], s, s', ho, hk, _, _, h => by injection h with h; subst h; exact ⟨ho, hk⟩
  | op :: ops, s, s', ho, hk, h1, h2, h => by
    simp only [exec] at h
    rw [Outcome.bind_eq_ok] at h
    obtain ⟨u, h3, h4⟩ := h
    exact onlyAt_exec (onlyAt_step ho hk (fun b hb => h1 b (by simp [hb])) (fun c' hc => h2 c' (by simp [hc])) h3)
      (by rw [kind_step h3]; exact hk) (fun b hb => h1 b (by simp [hb])) (fun c' hc => h2 c' (by simp [hc])) h4

/-- Nothing but pending events refers to the device. -/
structure Off (d : DevId) (s : Sys) : Prop where
  down : (s.dev d).linkUp = false
  index : ∀ c, NotIndexed c d s
  isl : ∀ c, (s.chan c).kind = .isl → d ∉ (s.chan c).link

theorem off_exec {E : Env} {d : DevId} : ∀ {ops : List Op} {s s' : Sys}, Off d s → (∀ c, Op.attach d c ∉ ops) →
    exec E s ops = .ok s' → Off d s'
  | [], s, s', ho, _, h => by injection h with h; subst h; exact ho
  | op :: ops, s, s', ho, h1, h => by
    simp only [exec] at h
    rw [Outcome.bind_eq_ok] at h
    obtain ⟨u, h3, h4⟩ := h
    have hop : ∀ c, op ≠ .attach d c := by rintro c rfl; exact h1 c (by simp)
    exact off_exec ⟨linkUp_step ho.down hop h3, fun c => notIndexed_step (hop c) h3 (ho.index c), isl_step hop h3 ho.isl⟩
      (fun c hc => h1 c (by simp [hc])) h4

/-- **How to get rid of a ground/space device**: a device that keeps its address and is only ever attached to one ground/space
channel can be disposed of once it has been detached under any of its ids, its last transmission has ended and no frame is on
the way to it. -/
theorem C88_detach_first {E : Env} {s0 s s1 s2 : Sys} {o1 o2 : List Op} {d : DevId} {c : ChanId} {slot : Nat} (h0 : Initial s0)
    (h : exec E s0 o1 = .ok s) (hk : (s0.chan c).kind = .leo) (ha : ∀ b, Op.setAddress d b ∉ o1)
    (hc : ∀ c', Op.attach d c' ∈ o1 → c' = c) (hid : (slot, d) ∈ handedIds c s.log)
    (h1 : step E s (.detach c slot) = .ok s1) (ho2 : ∀ c', Op.attach d c' ∉ o2) (h2 : exec E s1 o2 = .ok s2)
    (hidle : ∀ p ∈ s2.pending, (∀ dest, p.act ≠ .txComplete d dest) ∧ ∀ f src rx, p.act ≠ .receive d f src rx) :
    Unused E s2 d := by
  obtain ⟨hon, hk1⟩ := onlyAt_exec (a := (s0.dev d).addr) (c := c)
    ⟨rfl, fun c' b hb => (by rw [(h0.chans c').2.1] at hb; cases hb), fun c' b hb => (by rw [(h0.chans c').2.2] at hb; cases hb),
      fun c' _ hb => (by rw [(h0.chans c').1] at hb; cases hb)⟩ hk ha hc h
  have hl := linkInv_exec h0 h
  have hslot : (s.chan c).link[slot]? = some d := by
    rw [hl.ids] at hid
    obtain ⟨x, hx, hx2⟩ := List.mem_map.mp hid
    injection hx2 with e1 e2
    subst e1 e2
    rw [hl.link]
    exact List.mem_zipIdx_iff_getElem?.mp hx
  have hoff : Off d s1 := by
    have h1' : detach s c slot = .ok s1 := h1
    obtain ⟨g, t, r, l, hgt, _, _, hch, _, hdown, _⟩ := detach_view h1'
    rcases hgt with ⟨hi, _⟩ | ⟨_, d', hd', rfl, rfl⟩
    · rw [hk1] at hi; cases hi
    rw [hslot] at hd'
    injection hd' with hd'
    subst hd'
    refine ⟨hdown d hslot, ?_, isl_step (by rintro c' ⟨⟩) h1 hon.isl⟩
    intro c'
    unfold NotIndexed
    rw [hch]
    by_cases hcc : c' = c
    · subst hcc
      simp only [if_true]
      refine ⟨fun b hb => ?_, fun b hb => ?_⟩
      · rw [mem_mapErase] at hb
        exact hb.2 (by rw [(hon.ground c' b hb.1).2, hon.addr])
      · rw [mem_mapErase] at hb
        exact hb.2 (by rw [(hon.space c' b hb.1).2, hon.addr])
    · simp only [if_neg hcc]
      exact ⟨fun b hb => hcc (hon.ground c' b hb).1, fun b hb => hcc (hon.space c' b hb).1⟩
  have hoff2 := off_exec hoff ho2 h2
  exact ⟨hoff2.down, fun c' => (hoff2.index c').1, fun c' => (hoff2.index c').2, hoff2.isl, fun p hp => (hidle p hp).1,
    fun p hp f src rx hact => ((hidle p hp).2 f src rx hact).elim⟩

/-! ### What goes wrong otherwise -/

/-- A device that was ever attached to an inter-satellite channel is never without references again. -/
theorem C88_isl_keeps_devices {E : Env} {s0 s : Sys} {ops : List Op} {d : DevId} {c : ChanId} {slot : Nat} (h0 : Initial s0)
    (h : exec E s0 ops = .ok s) (hk : (s0.chan c).kind = .isl) (hid : (slot, d) ∈ handedIds c s.log) : ¬ Unused E s d := by
  intro hu
  have hl := linkInv_exec h0 h
  have hk' : (s.chan c).kind = .isl :=
    exec_induct (P := fun t => (t.chan c).kind = .isl) (fun _ _ _ hP hs => by rw [kind_step hs]; exact hP) hk h
  refine hu.isl c hk' ?_
  rw [hl.ids] at hid
  obtain ⟨x, hx, hx2⟩ := List.mem_map.mp hid
  injection hx2 with e1 e2
  subst e1 e2
  rw [hl.link]
  exact List.mem_of_getElem? (List.mem_zipIdx_iff_getElem?.mp hx)

theorem pending_step {E : Env} {s s' : Sys} {op : Op} {q : Pending} (h : step E s op = .ok s') (hq : q ∈ s.pending) :
    q ∈ s'.pending ∨ op = .run ∧ ∃ ps, s.pending = q :: ps := by
  cases op with
  | send x p dest proto =>
    left
    rcases send_ok h with ⟨_, rfl⟩ | ⟨hlu, _, m, _, f, hf, hcase⟩
    · exact hq
    · rcases hcase with ⟨_, rfl⟩ | ⟨hlen, hb, rfl⟩ | ⟨hlen, hb, g, rest, s3, hq, hts, rfl⟩
      · exact hq
      · exact hq
      · obtain ⟨_, c, src, rs, b, hchan, _, _, rfl⟩ := transmitStart_ok hts
        simp only [txState, mem_insertAll, mem_insertPending]
        exact Or.inr (Or.inr (by assumption))
  | sendFrom x p src dest proto => injection h with h; subst h; exact Or.inl hq
  | attach x c => obtain ⟨g, t, _, rfl⟩ := attach_ok h; exact Or.inl hq
  | detach c slot =>
    obtain ⟨g, t, _, h⟩ := detach_ok h
    rcases h with ⟨d, _, _, rfl⟩ | ⟨_, rfl⟩ <;> exact Or.inl hq
  | setAddress x a =>
    cases a with
    | other => cases h
    | mac m => injection h with h; subst h; exact Or.inl hq
  | run =>
    simp only [step, run] at h
    split at h
    · injection h with h; subst h; exact Or.inl hq
    · rename_i p ps hp
      rw [hp] at hq
      rcases List.mem_cons.mp hq with rfl | hq'
      · exact Or.inr ⟨rfl, ps, hp⟩
      · left
        clear hq
        obtain ⟨t, a⟩ := p
        cases a with
        | receive x f src rx => obtain ⟨l, hl, rfl⟩ := receive_ok h; exact hq'
        | txComplete x dest =>
          obtain ⟨hb, _, f, hcur, hcase⟩ := transmitComplete_ok h
          rcases hcase with ⟨_, rfl⟩ | ⟨p, rest, _, hts⟩
          · exact hq'
          · obtain ⟨_, c, src, rs, b, hchan, _, _, rfl⟩ := transmitStart_ok hts
            simp only [txState, mem_insertAll, mem_insertPending]
            exact Or.inr (Or.inr hq')
  | wait dt =>
    simp only [step] at h
    split at h <;> (injection h with h; subst h; exact Or.inl hq)
  | _ => injection h with h; subst h; exact Or.inl hq

theorem hasQueue_step {E : Env} {s s' : Sys} {op : Op} (h : step E s op = .ok s') (d : DevId) :
    (s'.dev d).hasQueue = (s.dev d).hasQueue := by
  rcases cfg_step h with h1 | ⟨x, c, rfl⟩
  · exact (h1 d).2.2.2.2.1
  · obtain ⟨g, t, _, rfl⟩ := attach_ok h
    by_cases hx : d = x <;> simp [hx]

theorem stuck_exec {E : Env} {d : DevId} {q : Pending} {dest : Addr} (hqd : q.act = .txComplete d dest) :
    ∀ {ops : List DOp} {s s' : DSys}, ClockInv s.sys → (s.sys.dev d).hasQueue = false → q ∈ s.sys.pending →
      execD E s ops = .ok s' → q ∈ s'.sys.pending ∧ s'.sys.now ≤ q.time
  | [], s, s', hc, _, hq, h => by
    injection h with h; subst h
    exact ⟨hq, hc.future q hq⟩
  | .dispose x :: ops, s, s', hc, hh, hq, h => by
    refine stuck_exec (ops := ops) (s := ⟨s.sys.setDev x (s.sys.dev x).disposed, fun y => if y = x then true else s.gone y⟩) hqd
      ⟨hc.sorted, hc.future⟩ ?_ hq h
    by_cases hx : d = x
    · subst hx; simp [Sys.setDev, Dev.disposed]
    · simp [Sys.setDev, hx, hh]
  | .op o :: ops, s, s', hc, hh, hq, h => by
    simp only [execD, stepD] at h
    rw [Outcome.bind_eq_ok] at h
    obtain ⟨u, h1, h2⟩ := h
    rw [Outcome.bind_eq_ok] at h1
    obtain ⟨t, h1, h3⟩ := h1
    injection h3 with h3
    subst h3
    refine stuck_exec (ops := ops) (s := ⟨t, s.gone⟩) hqd (clock_step hc h1).1 (by rw [hasQueue_step h1]; exact hh) ?_ h2
    rcases pending_step h1 hq with h4 | ⟨rfl, ps, h4⟩
    · exact h4
    · exfalso
      simp only [step, run, h4, dispatch, hqd] at h1
      have := (transmitComplete_ok h1).2.1
      simp only at this
      rw [hh] at this; cases this

theorem clockInv_execD {E : Env} : ∀ {ops : List DOp} {s s' : DSys}, ClockInv s.sys → execD E s ops = .ok s' → ClockInv s'.sys
  | [], s, s', hc, h => by injection h with h; subst h; exact hc
  | .dispose x :: ops, s, s', hc, h => 
    clockInv_execD (ops := ops) (s := ⟨s.sys.setDev x (s.sys.dev x).disposed, fun y => if y = x then true else s.gone y⟩)
      ⟨hc.sorted, hc.future⟩ h
  | .op o :: ops, s, s', hc, h => by
    simp only [execD, stepD] at h
    rw [Outcome.bind_eq_ok] at h
    obtain ⟨u, h1, h2⟩ := h
    rw [Outcome.bind_eq_ok] at h1
    obtain ⟨t, h1, h3⟩ := h1
    injection h3 with h3
    subst h3
    exact clockInv_execD (ops := ops) (s := ⟨t, s.gone⟩) (clock_step hc h1).1 h2

/-- **A transmission cannot outlive its device**: once a device has been disposed of while transmitting, no history whatsoever
gets past the end of that transmission. -/
theorem C88_disposed_while_sending {E : Env} {s0 : Sys} {s s' : DSys} {o1 o2 : List DOp} {d : DevId} {dest : Addr} {t : Time}
    (h0 : Initial s0) (h1 : execD E (DSys.start s0) o1 = .ok s) (hp : ⟨t, .txComplete d dest⟩ ∈ s.sys.pending)
    (h2 : execD E s (.dispose d :: o2) = .ok s') :
    ⟨t, .txComplete d dest⟩ ∈ s'.sys.pending ∧ s'.sys.now ≤ t := by
  have hc := clockInv_execD (s := DSys.start s0) (clockInv_initial h0) h1
  refine stuck_exec (ops := o2) (s := ⟨s.sys.setDev d (s.sys.dev d).disposed, fun y => if y = d then true else s.gone y⟩) rfl ⟨hc.sorted, hc.future⟩ ?_ hp h2
  simp [Sys.setDev, Dev.disposed]

theorem deliver_null {E : Env} {s : Sys} {c : ChanId} {f : Bytes} {src dst : DevId} {t : Time} (h : (s.dev dst).node = none) :
    deliver E s c f src dst t = .fail .nullNode := by
  rw [deliver_eq, if_neg (by simp [h])]

theorem deliver_result {E : Env} {s : Sys} {c : ChanId} {f : Bytes} {src dst : DevId} {t : Time} :
    deliver E s c f src dst t = .fail .nullNode ∨ ∃ s' b, deliver E s c f src dst t = .ok (s', b) ∧ s'.dev = s.dev := by
  rw [deliver_eq]
  split
  · exact Or.inr ⟨_, _, rfl, rfl⟩
  · exact Or.inl rfl

theorem deliverAll_null {E : Env} {c : ChanId} {f : Bytes} {src : DevId} {t : Time} {d : DevId} :
    ∀ {l : List DevId} {s : Sys} {r : Bool}, (s.dev d).node = none → d ∈ l →
      deliverAll E c f src t l s r = .fail .nullNode
  | x :: l, s, r, hn, hd => by
    simp only [deliverAll]
    rcases deliver_result (E := E) (s := s) (c := c) (f := f) (src := src) (dst := x) (t := t) with h | ⟨s', b, h, hdev⟩
    · rw [h]; rfl
    · rw [h]
      simp only [Outcome.ok_bind]
      rcases List.mem_cons.mp hd with rfl | hd
      · rw [deliver_null hn] at h; cases h
      · exact deliverAll_null (by rw [hdev]; exact hn) hd

theorem deliverOthers_null {E : Env} {c : ChanId} {f : Bytes} {src : DevId} {slot : Nat} {t : Time} {d : DevId} :
    ∀ {l : List DevId} {i : Nat} {s : Sys}, (s.dev d).node = none → (∃ j, l[j]? = some d ∧ i + j ≠ slot) →
      deliverOthers E c f src slot t l i s = .fail .nullNode
  | [], i, s, hn, ⟨j, hj, _⟩ => by simp at hj
  | x :: l, i, s, hn, ⟨j, hj, hs⟩ => by
    have rest : ∀ s' : Sys, s'.dev = s.dev → (j = 0 → False) →
        deliverOthers E c f src slot t l (i + 1) s' = .fail .nullNode := by
      intro s' hdev hj0
      cases j with
      | zero => exact (hj0 rfl).elim
      | succ j => exact deliverOthers_null (by rw [hdev]; exact hn) ⟨j, by simpa using hj, by omega⟩
    simp only [deliverOthers]
    split
    · rename_i hi
      exact rest s rfl (by rintro rfl; exact hs (by omega))
    · rcases deliver_result (E := E) (s := s) (c := c) (f := f) (src := src) (dst := x) (t := t) with h | ⟨s', b, h, hdev⟩
      · rw [h]; rfl
      · rw [h]
        simp only [Outcome.ok_bind]
        refine rest s' hdev ?_
        rintro rfl
        simp at hj
        subst hj
        rw [deliver_null hn] at h; cases h

theorem mem_eraseIdx_get {l : List DevId} {i : Nat} {d : DevId} (h : d ∈ l.eraseIdx i) : ∃ j, l[j]? = some d ∧ j ≠ i := by
  rw [List.mem_eraseIdx_iff_getElem?] at h
  obtain ⟨j, hj, hd⟩ := h
  exact ⟨j, hd, hj⟩

theorem chanTransmit_null {E : Env} {s : Sys} {c : ChanId} {f : Bytes} {slot : Nat} {dest : Addr} {t : Time} {d x : DevId}
    (hn : (s.dev d).node = none) (hx : (s.chan c).link[slot]? = some x) (hd : d ∈ audience s c slot dest)
    (hone : ¬ ((s.dev x).addr ∈ (s.chan c).gnd.map Prod.fst ∧ (s.dev x).addr ∈ (s.chan c).sat.map Prod.fst)) :
    chanTransmit E s c f slot dest t = .fail .nullNode := by
  unfold audience at hd
  simp only [hx] at hd
  unfold chanTransmit
  cases hk : (s.chan c).kind with
  | leo =>
    simp only [hk] at hd
    simp only [leoTransmit, hx]
    rw [if_neg (by
      intro hb
      rw [Bool.and_eq_true, mapHas_iff, mapHas_iff] at hb
      exact hone hb)]
    split at hd
    · rename_i hg
      rw [if_pos ((mapHas_iff _ _).mpr hg)]
      exact deliverAll_null hn hd
    · rename_i hg
      rw [if_neg (fun hh => hg ((mapHas_iff _ _).mp hh))]
      split at hd
      · rename_i hs
        rw [if_pos ((mapHas_iff _ _).mpr hs)]
        exact deliverAll_null hn hd
      · cases hd
  | isl =>
    simp only [hk] at hd
    simp only [islTransmit, hx, findByAddr_eq]
    split at hd
    · rename_i y hy
      rw [hy]
      simp only [List.mem_cons, List.not_mem_nil, or_false] at hd
      subst hd
      exact deliver_null hn
    · rename_i hy
      rw [hy]
      split at hd
      · rename_i hb
        subst hb
        simp only
        rw [if_pos (by decide), deliverOthers_null hn (by
          obtain ⟨j, h1, h2⟩ := mem_eraseIdx_get hd
          exact ⟨j, h1, by omega⟩)]
        rfl
      · cases hd

theorem mem_audience_congr {s t : Sys} {c : ChanId} {slot slot' : Nat} {dest : Addr} {d : DevId}
    (h : d ∈ audience s c slot dest) (hc : t.chan = s.chan) (ha : ∀ x, (t.dev x).addr = (s.dev x).addr) (hs : slot' = slot) :
    d ∈ audience t c slot' dest := by
  subst hs
  rw [audience_congr hc ha]; exact h

theorem transmitStart_null {E : Env} {s : Sys} {x d : DevId} {c : ChanId} {f : Bytes} {dest : Addr} (hb : (s.dev x).busy = false)
    (hc : (s.dev x).chan = some c) (hslot : (s.chan c).link[(s.dev x).chanSlot]? = some x)
    (hone : ¬ ((s.dev x).addr ∈ (s.chan c).gnd.map Prod.fst ∧ (s.dev x).addr ∈ (s.chan c).sat.map Prod.fst))
    (hd : d ∈ audience s c (s.dev x).chanSlot dest) (hn : (s.dev d).node = none) :
    transmitStart E s x f dest = .fail .nullNode := by
  unfold transmitStart
  simp only [hb, Bool.false_eq_true, if_false, hc]
  rw [chanTransmit_null (d := d) (x := x)]
  · rfl
  · by_cases hy : d = x
    · subst hy; simpa [Sys.emit, Sys.setDev, Sys.schedule] using hn
    · simpa [Sys.emit, Sys.setDev, Sys.schedule, hy] using hn
  · exact hslot
  · exact mem_audience_congr hd rfl (by intro y; by_cases hy : y = x <;> simp [Sys.emit, Sys.setDev, Sys.schedule, hy]) rfl
  · simpa [Sys.emit, Sys.setDev, Sys.schedule] using hone

/-- **A disposed device that is still in the channel is a trap**: the next frame that any idle device transmits to it - on a ground/space
channel every frame from the other side, whatever its destination - dereferences a null pointer. -/
theorem C88_left_in_channel {E : Env} {s : Sys} {x d : DevId} {c : ChanId} {p : Bytes} {m : Mac48} {proto : UInt16}
    (hx : (s.dev x).linkUp = true ∧ (s.dev x).busy = false ∧ (s.dev x).hasQueue = true)
    (hq : (s.dev x).queue.length < (s.dev x).cap) (hc : (s.dev x).chan = some c)
    (hslot : (s.chan c).link[(s.dev x).chanSlot]? = some x)
    (hone : ¬ ((s.dev x).addr ∈ (s.chan c).gnd.map Prod.fst ∧ (s.dev x).addr ∈ (s.chan c).sat.map Prod.fst))
    (hd : d ∈ audience s c (s.dev x).chanSlot (.mac m)) (hn : (s.dev d).node = none) :
    send E s x p (.mac m) proto = .fail .nullNode := by
  obtain ⟨h1, h2, h3⟩ := hx
  unfold send
  simp only [h1, h2, h3, Bool.not_true, Bool.false_eq_true, if_false, if_pos hq, Bool.not_false, if_true]
  cases hl : (s.dev x).queue ++ [addHeader E.fcs p (s.dev x).addr m proto] with
  | nil => simp at hl
  | cons g rest =>
    simp only
    rw [transmitStart_null (d := d) (c := c)]
    · rfl
    · simpa [Sys.emit, Sys.setDev] using h2
    · simpa [Sys.emit, Sys.setDev] using hc
    · simpa [Sys.emit, Sys.setDev] using hslot
    · simpa [Sys.emit, Sys.setDev] using hone
    · exact mem_audience_congr hd rfl (by intro y; by_cases hy : y = x <;> simp [Sys.emit, Sys.setDev, hy])
        (by simp [Sys.emit, Sys.setDev])
    · by_cases hy : d = x
      · subst hy; simpa [Sys.emit, Sys.setDev] using hn
      · simpa [Sys.emit, Sys.setDev, hy] using hn

/-- A disposed device whose link is up cannot be used: `Send` dereferences its null queue, whatever the destination. -/
theorem C88_send_after {E : Env} {s s' : DSys} {d : DevId} {p : Bytes} {m : Mac48} {proto : UInt16}
    (h : stepD E s (.dispose d) = .ok s') (hu : (s.sys.dev d).linkUp = true) :
    stepD E s' (.op (.send d p (.mac m) proto)) = .fail .nullQueue := by
  injection h with h; subst h
  simp [stepD, step, send, Sys.setDev, Dev.disposed, hu]

/-- What operations leave alone of a device without a queue: its transmitter and its node, and it neither accepts nor starts nor
ends anything. -/
structure Inert (d : DevId) (s s' : Sys) : Prop where
  node : (s'.dev d).node = (s.dev d).node
  cur : (s'.dev d).cur = (s.dev d).cur
  busy : (s'.dev d).busy = (s.dev d).busy
  queue : (s'.dev d).queue = (s.dev d).queue
  hasQueue : (s'.dev d).hasQueue = (s.dev d).hasQueue
  accepted : accepted d s'.log = accepted d s.log
  phases : phases d s'.log = phases d s.log

theorem Inert.refl (d : DevId) (s : Sys) : Inert d s s := ⟨rfl, rfl, rfl, rfl, rfl, rfl, rfl⟩

theorem Inert.trans {d : DevId} {s t u : Sys} (h : Inert d s t) (h' : Inert d t u) : Inert d s u :=
  ⟨h'.node.trans h.node, h'.cur.trans h.cur, h'.busy.trans h.busy, h'.queue.trans h.queue, h'.hasQueue.trans h.hasQueue,
    h'.accepted.trans h.accepted, h'.phases.trans h.phases⟩

theorem inert_of_eq {d : DevId} {s s' : Sys} {l : List (Time × Ev)} (hd : s'.dev d = s.dev d) (hl : s'.log = s.log ++ l)
    (h1 : proj (acceptedEv d) l = []) (h2 : proj (phaseEv d) l = []) : Inert d s s' := by
  refine ⟨by rw [hd], by rw [hd], by rw [hd], by rw [hd], by rw [hd], ?_, ?_⟩
  · simp [accepted, hl, proj_append, h1]
  · simp [phases, hl, proj_append, h2]

theorem txState_inert {E : Env} {s : Sys} {x d : DevId} {f : Bytes} {dest : Addr} {c : ChanId} {src : DevId} {rs : List Recv}
    {b : Bool} (hx : d ≠ x) : Inert d s (txState E s x f dest c src rs b) := by
  refine inert_of_eq (by simp [txState, hx]) rfl ?_ ?_
  · simp only [proj_append]
    rw [proj_entries (by intros; rfl)]
    cases b <;> simp [proj, acceptedEv]
  · simp only [proj_append]
    rw [proj_entries (by intros; rfl)]
    cases b <;> simp [proj, phaseEv, Ne.symm hx]

theorem proj_rxEv {α : Type} {g : Ev → Option α} {d : DevId} {t : Time} (hg : ∀ e, RxEv d e → g e = none) :
    ∀ {l : List Ev}, (∀ e ∈ l, RxEv d e) → proj g (l.map fun e => (t, e)) = []
  | [], _ => rfl
  | e :: l, h => by
    have := proj_rxEv (t := t) hg (l := l) (fun e he => h e (by simp [he]))
    simp only [proj] at this ⊢
    simp only [List.map, List.filterMap_cons, hg e (h e (by simp)), this]

theorem inert_step {E : Env} {s s' : Sys} {op : Op} {d : DevId} (hh : (s.dev d).hasQueue = false) (h : step E s op = .ok s') :
    Inert d s s' := by
  have set : ∀ (x : DevId) (v : Dev), v.node = (s.dev x).node → v.cur = (s.dev x).cur → v.busy = (s.dev x).busy →
      v.queue = (s.dev x).queue → v.hasQueue = (s.dev x).hasQueue → Inert d s (s.setDev x v) := by
    intro x v h1 h2 h3 h4 h5
    by_cases hx : d = x
    · subst hx
      exact ⟨by simpa [Sys.setDev] using h1, by simpa [Sys.setDev] using h2, by simpa [Sys.setDev] using h3,
        by simpa [Sys.setDev] using h4, by simpa [Sys.setDev] using h5, rfl, rfl⟩
    · exact ⟨by simp [Sys.setDev, hx], by simp [Sys.setDev, hx], by simp [Sys.setDev, hx], by simp [Sys.setDev, hx],
        by simp [Sys.setDev, hx], rfl, rfl⟩
  cases op with
  | send x p dest proto =>
    rcases send_ok h with ⟨_, rfl⟩ | ⟨hlu, hq, m, _, f, hf, hcase⟩
    · exact inert_of_eq rfl rfl rfl rfl
    · have hx : d ≠ x := by rintro rfl; rw [hh] at hq; cases hq
      rcases hcase with ⟨_, rfl⟩ | ⟨hlen, hb, rfl⟩ | ⟨hlen, hb, g, rest, s3, hg, hts, rfl⟩
      · exact inert_of_eq rfl rfl rfl rfl
      · exact inert_of_eq (by simp [hx]) rfl (by simp [proj, acceptedEv, Ne.symm hx]) (by simp [proj, phaseEv])
      · obtain ⟨_, c, src, rs, b, hchan, _, _, rfl⟩ := transmitStart_ok hts
        refine Inert.trans (inert_of_eq (by simp [hx]) rfl ?_ ?_) (Inert.trans (txState_inert hx) (inert_of_eq rfl rfl ?_ ?_))
        · simp [proj, acceptedEv]
        · simp [proj, phaseEv]
        · simp [proj, acceptedEv, Ne.symm hx]
        · simp [proj, phaseEv]
  | sendFrom x p src dest proto => injection h with h; subst h; exact inert_of_eq rfl rfl rfl rfl
  | attach x c =>
    obtain ⟨g, t, _, rfl⟩ := attach_ok h
    by_cases hx : d = x
    · subst hx
      exact ⟨by simp, by simp, by simp, by simp, by simp, by simp [accepted, proj, acceptedEv], by simp [phases, proj, phaseEv]⟩
    · exact inert_of_eq (by simp [hx]) rfl rfl rfl
  | detach c slot =>
    obtain ⟨g, t, _, h⟩ := detach_ok h
    rcases h with ⟨x, _, _, rfl⟩ | ⟨_, rfl⟩
    · by_cases hx : d = x
      · subst hx
        exact ⟨by simp, by simp, by simp, by simp, by simp, by simp [accepted, proj, acceptedEv], by simp [phases, proj, phaseEv]⟩
      · exact inert_of_eq (by simp [hx]) rfl rfl rfl
    · exact inert_of_eq rfl rfl rfl rfl
  | setAddress x a =>
    cases a with
    | other => cases h
    | mac m => injection h with h; subst h; exact set x _ rfl rfl rfl rfl rfl
  | run =>
    simp only [step, run] at h
    split at h
    · injection h with h; subst h; exact Inert.refl d s
    · rename_i p ps hp
      obtain ⟨t, a⟩ := p
      have h0 : Inert d s { s with now := t, pending := ps } := inert_of_eq (l := []) rfl (by simp) rfl rfl
      cases a with
      | receive x f src rx =>
        obtain ⟨l, hl, rfl⟩ := receive_ok h
        refine h0.trans (inert_of_eq rfl rfl ?_ ?_)
        · have := proj_rxEv (g := acceptedEv d) (d := x) (t := t) (by intro e he; cases e <;> first | rfl | cases he) hl
          simpa [proj, acceptedEv] using this
        · have := proj_rxEv (g := phaseEv d) (d := x) (t := t) (by intro e he; cases e <;> first | rfl | cases he) hl
          simpa [proj, phaseEv] using this
      | txComplete x dest =>
        obtain ⟨hb, hq, f, hcur, hcase⟩ := transmitComplete_ok h
        have hx : d ≠ x := by
          rintro rfl
          have hq' : (s.dev d).hasQueue = true := hq
          rw [hh] at hq'; cases hq'
        rcases hcase with ⟨_, rfl⟩ | ⟨p, rest, _, hts⟩
        · exact h0.trans (inert_of_eq (by simp [hx]) rfl (by simp [proj, acceptedEv]) (by simp [proj, phaseEv, Ne.symm hx]))
        · obtain ⟨_, c, src, rs, b, hchan, _, _, rfl⟩ := transmitStart_ok hts
          refine h0.trans (Inert.trans (inert_of_eq (by simp [hx]) rfl ?_ ?_) (txState_inert hx))
          · simp [proj, acceptedEv]
          · simp [proj, phaseEv, Ne.symm hx]
  | wait dt =>
    simp only [step] at h
    split at h <;> (injection h with h; subst h)
    · exact inert_of_eq (l := []) rfl (by simp) rfl rfl
    · exact Inert.refl d s
  | _ => injection h with h; subst h; exact set _ _ rfl rfl rfl rfl rfl

theorem devChan_step {E : Env} {s s' : Sys} {op : Op} {d : DevId} (hop : ∀ c, op ≠ .attach d c) (h : step E s op = .ok s') :
    (s'.dev d).chan = (s.dev d).chan := by
  rcases cfg_step h with h1 | ⟨x, c, rfl⟩
  · exact (h1 d).1
  · obtain ⟨g, t, _, rfl⟩ := attach_ok h
    have hx : d ≠ x := by rintro rfl; exact hop c rfl
    simp [hx]

/-- A device that has been disposed of, as later code sees it. -/
structure Disposed (d : DevId) (s : Sys) : Prop where
  node : (s.dev d).node = none
  cur : (s.dev d).cur = none
  queue : (s.dev d).queue = []
  hasQueue : (s.dev d).hasQueue = false

theorem disposed_exec {E : Env} {d : DevId} : ∀ {ops : List DOp} {s s' : DSys}, Disposed d s.sys → execD E s ops = .ok s' →
    Disposed d s'.sys ∧ (s'.sys.dev d).busy = (s.sys.dev d).busy ∧ accepted d s'.sys.log = accepted d s.sys.log ∧
      phases d s'.sys.log = phases d s.sys.log ∧
      ((s.sys.dev d).chan = none → (∀ c, DOp.op (.attach d c) ∉ ops) → (s'.sys.dev d).chan = none)
  | [], s, s', hd, h => by
    injection h with h; subst h
    exact ⟨hd, rfl, rfl, rfl, fun h _ => h⟩
  | .dispose x :: ops, s, s', hd, h => by
    have h' : execD E ⟨s.sys.setDev x (s.sys.dev x).disposed, fun y => if y = x then true else s.gone y⟩ ops = .ok s' := h
    by_cases hx : d = x
    · subst hx
      obtain ⟨h1, h2, h3, h4, h5⟩ := disposed_exec (d := d) (ops := ops) (by constructor <;> simp [Sys.setDev, Dev.disposed]) h'
      refine ⟨h1, ?_, h3, h4, fun _ hn => h5 ?_ fun c hc => hn c (by simp [hc])⟩
      · simpa [Sys.setDev, Dev.disposed] using h2
      · simp [Sys.setDev, Dev.disposed]
    · obtain ⟨h1, h2, h3, h4, h5⟩ := disposed_exec (d := d) (ops := ops)
        (by constructor <;> simp [Sys.setDev, hx, hd.node, hd.cur, hd.queue, hd.hasQueue]) h'
      refine ⟨h1, ?_, h3, h4, fun hc hn => h5 ?_ fun c hc => hn c (by simp [hc])⟩
      · simpa [Sys.setDev, hx] using h2
      · simpa [Sys.setDev, hx] using hc
  | .op o :: ops, s, s', hd, h => by
    simp only [execD, stepD] at h
    rw [Outcome.bind_eq_ok] at h
    obtain ⟨u, h1, h2⟩ := h
    rw [Outcome.bind_eq_ok] at h1
    obtain ⟨t, h1, h3⟩ := h1
    injection h3 with h3
    subst h3
    have hi := inert_step hd.hasQueue h1
    obtain ⟨h4, h5, h6, h7, h8⟩ := disposed_exec (ops := ops) (s := ⟨t, s.gone⟩) (d := d)
      ⟨hi.node.trans hd.node, hi.cur.trans hd.cur, hi.queue.trans hd.queue, hi.hasQueue.trans hd.hasQueue⟩ h2
    refine ⟨h4, h5.trans hi.busy, h6.trans hi.accepted, h7.trans hi.phases, fun hc hn => h8 ?_ fun c hc => hn c (by simp [hc])⟩
    have := devChan_step (d := d) (fun c hoc => hn c (by simp [hoc])) h1
    exact this.trans hc

/-- **A disposed device never comes back**: whatever happens later, it has no node, no current packet and no queue, the frames
that waited in its queue are gone, its transmitter stays as it was, and it accepts, starts and completes nothing any more; it has no
channel either, unless it is attached again. -/
theorem C88_never_comes_back {E : Env} {s s' : DSys} {ops : List DOp} {d : DevId}
    (h : execD E s (.dispose d :: ops) = .ok s') :
    ((s'.sys.dev d).node = none ∧ (s'.sys.dev d).cur = none ∧ (s'.sys.dev d).hasQueue = false ∧ (s'.sys.dev d).queue = []) ∧
      (s'.sys.dev d).busy = (s.sys.dev d).busy ∧ accepted d s'.sys.log = accepted d s.sys.log ∧
      phases d s'.sys.log = phases d s.sys.log ∧
      ((∀ c, DOp.op (.attach d c) ∉ ops) → (s'.sys.dev d).chan = none) := by
  have h' : execD E ⟨s.sys.setDev d (s.sys.dev d).disposed, fun y => if y = d then true else s.gone y⟩ ops = .ok s' := h
  obtain ⟨h1, h2, h3, h4, h5⟩ := disposed_exec (d := d) (by constructor <;> simp [Sys.setDev, Dev.disposed]) h'
  refine ⟨⟨h1.node, h1.cur, h1.hasQueue, h1.queue⟩, ?_, h3, h4, fun hn => h5 ?_ hn⟩
  · simpa [Sys.setDev, Dev.disposed] using h2
  · simp [Sys.setDev, Dev.disposed]

/-- **How the transmission of a disposed device fails**: when the end of a transmission comes during which the device was disposed of,
the assertion that there is a current packet fails. -/
theorem C88_completion_of_disposed {E : Env} {s s' : DSys} {ops : List DOp} {d : DevId} {dest : Addr} {t : Time} {ps : List Pending}
    (hb : (s.sys.dev d).busy = true) (h : execD E s (.dispose d :: ops) = .ok s')
    (hp : s'.sys.pending = ⟨t, .txComplete d dest⟩ :: ps) : stepD E s' (.op .run) = .fail .noCurrentPacket := by
  obtain ⟨⟨_, hc, _, _⟩, hb', _⟩ := C88_never_comes_back h
  rw [hb] at hb'
  simp only [stepD, step, run, hp, dispatch]
  simp [transmitComplete, hb', hc]

/-- A call by the user that is not made on the device itself. -/
def NotOn (d : DevId) : Op → Prop
  | .send x _ _ _ | .sendFrom x _ _ _ _ | .attach x _ | .setAddress x _ | .setSide x _ | .setRate x _ | .setGap x _
  | .setMtu x _ | .setTxPower x _ | .setRxThreshold x _ | .setRxGain x _ | .setRxLoss x _ | .setPromisc x _ => x ≠ d
  | .detach _ _ | .run | .wait _ => True

/-- The intended property: disposing of a device that is not used any more never makes the simulation fail. -/
def DisposalIsHarmless (E : Env) : Prop :=
  ∀ (s0 : Sys) (o1 o2 : List Op) (d : DevId), Initial s0 → (∀ o ∈ o2, NotOn d o) → (∃ s, exec E s0 (o1 ++ o2) = .ok s) →
    ∃ s, execD E (DSys.start s0) (o1.map .op ++ .dispose d :: o2.map .op) = .ok s

/-- The fault that ends a history with disposals, if any. -/
def Demo.faultD (E : Env) (s : Sys) (ops : List DOp) : Option Fault :=
  match execD E (DSys.start s) ops with
  | .ok _ => none
  | .fail e => some e

/-- A decidable test of the final state of a history with disposals. -/
def Demo.checkD (E : Env) (s : Sys) (ops : List DOp) (test : DSys → Bool) : Bool :=
  match execD E (DSys.start s) ops with
  | .ok s' => test s'
  | .fail _ => false

/-- **C88 is false of the code**: a satellite that is disposed of stays in the index of its channel. -/
theorem C88_disposal_is_harmless_false : ¬ DisposalIsHarmless Demo.env := by
  intro hall
  obtain ⟨s, hs⟩ := hall Demo.sys [.attach 0 0, .attach 1 0] [.send 0 [1] (.mac (Demo.mac 9)) 2048] 1 Demo.sys_initial
    (by intro o ho; simp at ho; subst ho; exact (by decide : (0 : Nat) ≠ 1))
    (Demo.exists_of_runs (by decide +kernel))
  have : Demo.faultD Demo.env Demo.sys ([.op (.attach 0 0), .op (.attach 1 0)] ++
    .dispose 1 :: [.op (.send 0 [1] (.mac (Demo.mac 9)) 2048)]) = some .nullNode := by decide +kernel
  simp only [List.map] at hs
  unfold Demo.faultD at this
  rw [hs] at this
  cases this

/-! ### Examples -/

/-- The same on an inter-satellite channel even after a detach, by a broadcast and by the address of the device; a disposed
sender fails at the end of its transmission. -/
example :
    Demo.faultD Demo.env Demo.sys [.op (.attach 1 1), .op (.attach 3 1), .op (.detach 1 1), .dispose 3,
      .op (.send 1 [1] (.mac (Demo.mac 4)) 2048)] = some .nullNode ∧
    Demo.faultD Demo.env Demo.sys [.op (.attach 1 1), .op (.attach 3 1), .op (.detach 1 1), .dispose 3,
      .op (.send 1 [1] (.mac Mac48.broadcast) 2048)] = some .nullNode ∧
    Demo.faultD Demo.env Demo.sys [.op (.attach 1 1), .op (.attach 3 1), .op (.send 1 [1] (.mac (Demo.mac 4)) 2048),
      .dispose 1, .op .run, .op .run] = some .noCurrentPacket := by decide +kernel

/-- The hypotheses of `C88_left_in_channel` are met by a disposed satellite and an idle ground station. -/
example : Demo.checkD Demo.env Demo.sys [.op (.attach 0 0), .op (.attach 1 0), .dispose 1] (fun s =>
    (s.sys.dev 0).linkUp && !(s.sys.dev 0).busy && (s.sys.dev 0).hasQueue && (s.sys.dev 0).chan == some 0 &&
    (s.sys.chan 0).link[(s.sys.dev 0).chanSlot]? == some 0 && (audience s.sys 0 (s.sys.dev 0).chanSlot (.mac (Demo.mac 9))).contains 1 &&
    !((s.sys.chan 0).sat.map Prod.fst).contains (s.sys.dev 0).addr && (s.sys.dev 1).node == none) = true := by decide +kernel

/-- The hypotheses of `C88_disposed_while_sending` are met: other events still happen, but not the completion. -/
example : Demo.checkD Demo.env Demo.sys [.op (.attach 1 1), .op (.attach 3 1), .op (.setGap 1 5),
    .op (.send 1 [1] (.mac (Demo.mac 4)) 2048)]
      (fun s => s.sys.pending.any fun p => p.act == .txComplete 1 (.mac (Demo.mac 4))) = true ∧
    Demo.checkD Demo.env Demo.sys [.op (.attach 1 1), .op (.attach 3 1), .op (.setGap 1 5),
    .op (.send 1 [1] (.mac (Demo.mac 4)) 2048), .dispose 1, .op .run]
      (fun s => s.sys.log.any fun e => match e.2 with | .rxCallback d _ _ _ => d == 3 | _ => false) = true := by
  decide +kernel

/-- The hypotheses of `C88_never_comes_back` and `C88_completion_of_disposed` are met: a device is disposed of with one frame on the
air and one waiting, attached again, and then its first transmission ends. -/
example : Demo.checkD Demo.env Demo.sys [.op (.attach 1 1), .op (.attach 3 1), .op (.setGap 1 5),
    .op (.send 1 [1] (.mac (Demo.mac 4)) 2048), .op (.send 1 [2] (.mac (Demo.mac 4)) 2048)]
      (fun s => (s.sys.dev 1).busy && (s.sys.dev 1).queue.length == 1 && (s.sys.dev 1).chan == some 1) = true ∧
    Demo.checkD Demo.env Demo.sys [.op (.attach 1 1), .op (.attach 3 1), .op (.setGap 1 5),
    .op (.send 1 [1] (.mac (Demo.mac 4)) 2048), .op (.send 1 [2] (.mac (Demo.mac 4)) 2048), .dispose 1, .op .run, .op (.attach 1 2)]
      (fun s => s.sys.pending.head?.any (fun p => p.act == .txComplete 1 (.mac (Demo.mac 4))) &&
        (accepted 1 s.sys.log).length == 2 && (s.sys.dev 1).chan == some 2) = true := by
  decide +kernel

/-- A satellite is detached, disposed of, and the rest of the network goes on. -/
def demoRetire : List DOp := [.op (.attach 0 0), .op (.attach 1 0), .op (.attach 3 0),
  .op (.send 0 [1] (.mac (Demo.mac 4)) 2048), .op .run, .op .run, .op .run, .op (.detach 0 1), .dispose 1,
  .op (.send 0 [2] (.mac (Demo.mac 4)) 2048), .op .run, .op .run]

theorem dispose_unique {x d : DevId} : ∀ {a b o1 o2 : List DOp}, (∀ y, DOp.dispose y ∉ a) → (∀ y, DOp.dispose y ∉ b) →
    a ++ .dispose x :: b = o1 ++ .dispose d :: o2 → o1 = a ∧ d = x ∧ o2 = b
  | [], b, [], o2, _, _, h => by
    simp only [List.nil_append, List.cons.injEq, DOp.dispose.injEq] at h
    exact ⟨rfl, h.1.symm, h.2.symm⟩
  | [], b, y :: o1, o2, _, hb, h => by
    simp only [List.nil_append, List.cons_append, List.cons.injEq] at h
    exact (hb d (by rw [h.2]; simp)).elim
  | y :: a, b, [], o2, ha, _, h => by
    simp only [List.nil_append, List.cons_append, List.cons.injEq] at h
    exact (ha d (by rw [h.1]; simp)).elim
  | y :: a, b, z :: o1, o2, ha, hb, h => by
    simp only [List.cons_append, List.cons.injEq] at h
    obtain ⟨h1, h2, h3⟩ := dispose_unique (fun w hw => ha w (by simp [hw])) hb h.2
    exact ⟨by rw [h.1, h1], h2, h3⟩

theorem execD_map {E : Env} : ∀ {ops : List Op} {s : Sys} {s' : DSys}, execD E (DSys.start s) (ops.map .op) = .ok s' →
    exec E s ops = .ok s'.sys
  | [], s, s', h => by injection h with h; subst h; rfl
  | o :: ops, s, s', h => by
    simp only [List.map, execD, stepD] at h
    rw [Outcome.bind_eq_ok] at h
    obtain ⟨u, h1, h2⟩ := h
    rw [Outcome.bind_eq_ok] at h1
    obtain ⟨t, h1, h3⟩ := h1
    injection h3 with h3
    subst h3
    have h1' : step E s o = .ok t := h1
    simp only [exec, h1', Outcome.ok_bind]
    exact execD_map h2

/-- The hypotheses of `C88_as_if_kept_partial` and `C88_detach_first` are met, and a frame is received after the disposal. -/
example : Tidy Demo.env (DSys.start Demo.sys) demoRetire ∧ Demo.checkD Demo.env Demo.sys demoRetire (fun s =>
    s.gone 1 && (s.sys.log.filter fun e => match e.2 with | .rxCallback d _ _ _ => d == 3 | _ => false).length == 2 &&
    (s.sys.log.filter fun e => match e.2 with | .recvCall d _ _ _ => d == 1 | _ => false).length == 1) = true := by
  refine ⟨?_, by decide +kernel⟩
  intro o1 d o2 ho
  obtain ⟨rfl, rfl, rfl⟩ := dispose_unique (a := ([.attach 0 0, .attach 1 0, .attach 3 0,
    .send 0 [1] (.mac (Demo.mac 4)) 2048, .run, .run, .run, .detach 0 1] : List Op).map .op)
    (b := ([.send 0 [2] (.mac (Demo.mac 4)) 2048, .run, .run] : List Op).map .op) (by simp) (by simp) ho
  refine ⟨?_, by simp⟩
  intro s1 hs1
  obtain ⟨s, hs, hid⟩ := Demo.exists_of_check (E := Demo.env) (s := Demo.sys) (ops := [.attach 0 0, .attach 1 0, .attach 3 0,
    .send 0 [1] (.mac (Demo.mac 4)) 2048, .run, .run, .run]) (test := fun s => decide ((1, 1) ∈ handedIds 0 s.log))
    (by decide +kernel)
  obtain ⟨s2, hs2, hp⟩ := Demo.exists_of_check (E := Demo.env) (s := Demo.sys) (ops := [.attach 0 0, .attach 1 0, .attach 3 0,
    .send 0 [1] (.mac (Demo.mac 4)) 2048, .run, .run, .run, .detach 0 1]) (test := fun s => s.pending.isEmpty)
    (by decide +kernel)
  have hx := execD_map hs1
  rw [hs2] at hx
  injection hx with hx
  subst hx
  have hsplit := exec_append (E := Demo.env) (s := Demo.sys) (ops1 := [.attach 0 0, .attach 1 0, .attach 3 0,
    .send 0 [1] (.mac (Demo.mac 4)) 2048, .run, .run, .run]) (ops2 := [.detach 0 1])
  rw [hs] at hsplit
  have h1 : step Demo.env s (.detach 0 1) = .ok s1.sys := by
    have h2 : exec Demo.env s [.detach 0 1] = .ok s1.sys := hsplit.symm.trans hs2
    simp only [exec] at h2
    rw [Outcome.bind_eq_ok] at h2
    obtain ⟨u, h3, h4⟩ := h2
    injection h4 with h4
    rw [h3, h4]
  exact C88_detach_first Demo.sys_initial hs rfl (by simp) (by simp) (by simpa using hid) h1 (o2 := []) (by simp) rfl
    (by rw [List.isEmpty_iff.mp hp]; simp)

end Verif
