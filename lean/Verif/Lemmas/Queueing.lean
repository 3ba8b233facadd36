import Verif.Lemmas.Arrive
import Verif.Spec.Queueing
/-! Busy periods and start times of the transmissions of one device. -/

namespace Verif
open Spec

/-! ### Which `Send` opened the current busy period -/

/-- `done` contains a `Send` to `dest` that found the device idle, and the device has been busy since. -/
def Opened (E : Env) (s0 : Sys) (d : DevId) (done : List Op) (dest : Addr) : Prop :=
  ∃ o1 p proto o2 sa, done = o1 ++ Op.send d p dest proto :: o2 ∧ exec E s0 o1 = .ok sa ∧ (sa.dev d).busy = false ∧
    ∀ o3 o4 sb, o2 = o3 ++ o4 → exec E s0 (o1 ++ Op.send d p dest proto :: o3) = .ok sb → (sb.dev d).busy = true

theorem exec_snoc {E : Env} {s s1 s2 : Sys} {ops : List Op} {op : Op} (h1 : exec E s ops = .ok s1)
    (h2 : step E s1 op = .ok s2) : exec E s (ops ++ [op]) = .ok s2 := by
  rw [exec_append, h1]
  show exec E s1 [op] = _
  simp only [exec]
  rw [h2]; rfl

theorem Opened.snoc {E : Env} {s0 s s' : Sys} {d : DevId} {done : List Op} {dest : Addr} {op : Op}
    (h : Opened E s0 d done dest) (hx : exec E s0 done = .ok s) (hs : step E s op = .ok s') (hb : (s'.dev d).busy = true) :
    Opened E s0 d (done ++ [op]) dest := by
  obtain ⟨o1, p, proto, o2, sa, rfl, ha, hi, hall⟩ := h
  refine ⟨o1, p, proto, o2 ++ [op], sa, by simp, ha, hi, ?_⟩
  intro o3 o4 sb hq hsb
  rcases List.eq_nil_or_concat o4 with rfl | ⟨o5, x, rfl⟩
  · rw [List.append_nil] at hq
    subst hq
    have := exec_snoc hx hs
    rw [show o1 ++ Op.send d p dest proto :: (o2 ++ [op]) = (o1 ++ Op.send d p dest proto :: o2) ++ [op] by simp] at hsb
    rw [this] at hsb
    injection hsb with hsb
    rw [← hsb]; exact hb
  · rw [List.concat_eq_append, ← List.append_assoc] at hq
    have := List.append_inj' hq rfl
    exact hall o3 o5 sb this.1 hsb

/-- Every busy device is transmitting with the destination of the `Send` that opened the busy period. -/
theorem opened_exec {E : Env} {s0 s : Sys} {ops : List Op} (h0 : Initial s0) (h : exec E s0 ops = .ok s) (d : DevId)
    (hb : (s.dev d).busy = true) : ∃ t dest, txc d s.pending = [(t, dest)] ∧ Opened E s0 d ops dest := by
  have key : ∀ (ops done : List Op) (s1 : Sys), exec E s0 done = .ok s1 → Inv s1 →
      ((s1.dev d).busy = true → ∃ t dest, txc d s1.pending = [(t, dest)] ∧ Opened E s0 d done dest) →
      exec E s1 ops = .ok s → ∃ t dest, txc d s.pending = [(t, dest)] ∧ Opened E s0 d (done ++ ops) dest := by
    intro ops
    induction ops with
    | nil => intro done s1 _ _ h2 h3; injection h3 with h3; subst h3; simpa using h2 hb
    | cons op ops ih =>
      intro done s1 h1 hi h2 h3
      simp only [exec] at h3
      rw [Outcome.bind_eq_ok] at h3
      obtain ⟨s2, hs, h3⟩ := h3
      rw [show done ++ op :: ops = (done ++ [op]) ++ ops by simp]
      refine ih (done ++ [op]) s2 (exec_snoc h1 hs) (inv_step hi hs) ?_ h3
      intro hb2
      cases devStep_step hi.dev hs d with
      | keep acc kb kc kt _ _ kl =>
        rw [kb] at hb2
        obtain ⟨t, dest, ht, ho⟩ := h2 hb2
        exact ⟨t, dest, by rw [kt, ht], ho.snoc h1 hs (by rw [kb, hb2])⟩
      | start g dest hsend kb kb' _ _ kt kl =>
        refine ⟨_, dest, kt, ?_⟩
        obtain ⟨p, proto, m, rfl, _, _⟩ := hsend
        refine ⟨done, p, proto, [], s1, rfl, h1, kb, ?_⟩
        intro o3 o4 sb hq hsb
        have : o3 = [] := by
          cases o3 with
          | nil => rfl
          | cons => cases hq
        subst this
        have e := exec_snoc h1 hs
        rw [e] at hsb
        injection hsb with hsb
        rw [← hsb]; exact hb2
      | stop _ _ _ kb => rw [kb] at hb2; cases hb2
      | next f g dest rest kb kb' _ _ _ _ kt kt' kl =>
        obtain ⟨t, dest', ht, ho⟩ := h2 kb
        rw [kt] at ht
        injection ht with ht _
        injection ht with _ ht
        subst ht
        exact ⟨_, dest, kt', ho.snoc h1 hs hb2⟩
  have := key ops [] s0 rfl (inv_initial h0) (fun hb0 => by rw [(h0.idle d).1] at hb0; cases hb0) h
  simpa using this

theorem busy_iff_transmitting {s : Sys} {d : DevId} (h : DevInv s d) : (s.dev d).busy = true ↔ Transmitting d s.log := by
  unfold Transmitting
  rw [h.log.phase]
  constructor
  · intro hb
    obtain ⟨f, _, _, hc, _⟩ := h.busy hb
    exact ⟨f, by rw [hc]; simp⟩
  · rintro ⟨f, hf⟩
    by_contra hb
    rw [(h.ready (by simpa using hb)).1] at hf
    simp only [Option.map_none, Option.toList_none, List.append_nil] at hf
    rcases List.eq_nil_or_concat (ended d s.log) with he | ⟨l, x, he⟩
    · rw [he] at hf; cases hf
    · rw [he, List.concat_eq_append, List.flatMap_append] at hf
      simp at hf

/-! ### Start times -/

/-- When the server is free after these customers. -/
def freeAfter (w : Bytes → Time) : Time → List (Time × Bytes) → Time
  | free, [] => free
  | free, (t, f) :: l => freeAfter w (max t free + w f) l

theorem fifo_append (w : Bytes → Time) (free : Time) (l m : List (Time × Bytes)) :
    fifo w free (l ++ m) = fifo w free l ++ fifo w (freeAfter w free l) m := by
  induction l generalizing free with
  | nil => rfl
  | cons a l ih => obtain ⟨t, f⟩ := a; simp [fifo, freeAfter, ih]

theorem freeAfter_append (w : Bytes → Time) (free : Time) (l m : List (Time × Bytes)) :
    freeAfter w free (l ++ m) = freeAfter w (freeAfter w free l) m := by
  induction l generalizing free with
  | nil => rfl
  | cons a l ih => obtain ⟨t, f⟩ := a; simp [freeAfter, ih]

theorem fifo_frames (w : Bytes → Time) (free : Time) (l : List (Time × Bytes)) :
    (fifo w free l).map Prod.snd = l.map Prod.snd := by
  induction l generalizing free with
  | nil => rfl
  | cons a l ih => obtain ⟨t, f⟩ := a; simp [fifo, ih]

theorem fifo_length (w : Bytes → Time) (free : Time) (l : List (Time × Bytes)) : (fifo w free l).length = l.length := by
  simpa using congrArg List.length (fifo_frames w free l)

theorem fifo_ge (w : Bytes → Time) (free : Time) (l : List (Time × Bytes)) : ∀ x ∈ fifo w free l, free ≤ x.1 := by
  induction l generalizing free with
  | nil => simp [fifo]
  | cons a l ih =>
    obtain ⟨t, f⟩ := a
    intro x hx
    simp only [fifo, List.mem_cons] at hx
    rcases hx with rfl | hx
    · simp only; omega
    · have := ih _ x hx; omega

theorem acceptedT_frames (d : DevId) (log : List (Time × Ev)) : (acceptedT d log).map Prod.snd = accepted d log := by
  unfold acceptedT accepted projT proj
  rw [List.map_filterMap]
  congr 1
  funext e
  cases acceptedEv d e.2 <;> rfl

theorem begunT_phases (d : DevId) (log : List (Time × Ev)) :
    begunT d log = (phasesT d log).filterMap (fun x => match x.2 with | .start f => some (x.1, f) | .stop _ => none) := by
  unfold begunT phasesT projT
  rw [List.filterMap_filterMap]
  congr 1
  funext e
  obtain ⟨t, e⟩ := e
  cases e <;> try rfl
  all_goals
    simp only [begunEv, phaseEv]
    split <;> rfl

theorem begunT_frames (d : DevId) (log : List (Time × Ev)) : (begunT d log).map Prod.snd = begun d log := by
  unfold begunT begun projT proj
  rw [List.map_filterMap]
  congr 1
  funext e
  cases begunEv d e.2 <;> rfl

theorem acceptedT_step {s s' : Sys} {d : DevId} {ph : List Phase} {air : List (Bytes × Addr)} {acc : List Bytes}
    (ht : TimeStep s s') (hl : LogStep d s s' ph air acc) :
    acceptedT d s'.log = acceptedT d s.log ++ acc.map (fun f => (s'.now, f)) := by
  obtain ⟨l, h1, h2⟩ := ht.log
  have h3 : accepted d l = acc := by
    have := hl.acc
    rw [h1] at this
    unfold accepted at this ⊢
    rw [proj_append] at this
    exact List.append_cancel_left this
  rw [h1]
  unfold acceptedT
  rw [projT_append]
  congr 1
  rw [← h3]
  unfold projT accepted proj
  rw [List.map_filterMap]
  apply List.filterMap_congr
  intro e he
  rw [h2 e he]

theorem begunT_step {s s' : Sys} {d : DevId} {ph : List Phase} {air : List (Bytes × Addr)} {acc : List Bytes}
    (hl : LogStep d s s' ph air acc) :
    begunT d s'.log = begunT d s.log ++
      ph.filterMap (fun p => match p with | .start f => some (s'.now, f) | .stop _ => none) := by
  rw [begunT_phases, hl.phase, List.filterMap_append, ← begunT_phases, List.filterMap_map]
  congr 1

/-- Rate and interframe gap change only by their setters. -/
theorem speed_step {E : Env} {s s' : Sys} {op : Op} {d : DevId} (h1 : ∀ r, op ≠ .setRate d r) (h2 : ∀ g, op ≠ .setGap d g)
    (h : step E s op = .ok s') : (s'.dev d).rate = (s.dev d).rate ∧ (s'.dev d).gap = (s.dev d).gap ∧
      (s'.dev d).cap = (s.dev d).cap := by
  have set : ∀ (x : DevId) (v : Dev), (x = d → v.rate = (s.dev x).rate ∧ v.gap = (s.dev x).gap ∧ v.cap = (s.dev x).cap) →
      ((s.setDev x v).dev d).rate = (s.dev d).rate ∧ ((s.setDev x v).dev d).gap = (s.dev d).gap ∧
        ((s.setDev x v).dev d).cap = (s.dev d).cap := by
    intro x v hv
    by_cases hx : d = x
    · subst hx; simp [Sys.setDev, hv rfl]
    · simp [Sys.setDev, hx]
  cases op with
  | send x p dest proto =>
    rcases send_ok h with ⟨_, rfl⟩ | ⟨hlu, _, m, _, f, hf, hcase⟩
    · exact ⟨rfl, rfl, rfl⟩
    · rcases hcase with ⟨_, rfl⟩ | ⟨hlen, hb, rfl⟩ | ⟨hlen, hb, g, rest, s3, hq, hts, rfl⟩
      · exact ⟨rfl, rfl, rfl⟩
      · by_cases hx : d = x
        · subst hx; simp
        · simp [hx]
      · obtain ⟨_, c, src, rs, b, hchan, _, _, rfl⟩ := transmitStart_ok hts
        by_cases hx : d = x
        · subst hx; simp [txState]
        · simp [txState, hx]
  | sendFrom => injection h with h; subst h; exact ⟨rfl, rfl, rfl⟩
  | attach x c =>
    obtain ⟨g, t, _, rfl⟩ := attach_ok h
    by_cases hx : d = x
    · subst hx; simp
    · simp [hx]
  | detach c slot =>
    obtain ⟨g, t, _, h⟩ := detach_ok h
    rcases h with ⟨x, _, _, rfl⟩ | ⟨_, rfl⟩
    · by_cases hx : d = x
      · subst hx; simp
      · simp [hx]
    · exact ⟨rfl, rfl, rfl⟩
  | setAddress x a =>
    cases a with
    | other => cases h
    | mac m => injection h with h; subst h; exact set _ _ fun _ => ⟨rfl, rfl, rfl⟩
  | run =>
    simp only [step, run] at h
    split at h
    · injection h with h; subst h; exact ⟨rfl, rfl, rfl⟩
    · rename_i p ps hp
      obtain ⟨t, a⟩ := p
      cases a with
      | receive x f src rx =>
        obtain ⟨l, _, rfl⟩ := receive_ok h
        exact ⟨rfl, rfl, rfl⟩
      | txComplete x dest =>
        obtain ⟨hb, _, f, hcur, hcase⟩ := transmitComplete_ok h
        rcases hcase with ⟨hq, rfl⟩ | ⟨q, rest, hq, hts⟩
        · by_cases hx : d = x
          · subst hx; simp
          · simp [hx]
        · obtain ⟨_, c, src, rs, b, hchan, _, _, hs3⟩ := transmitStart_ok hts
          rw [hs3]
          by_cases hx : d = x
          · subst hx; simp [txState]
          · simp [txState, hx]
  | wait dt =>
    simp only [step] at h
    split at h <;> injection h with h <;> subst h <;> exact ⟨rfl, rfl, rfl⟩
  | setRate x r =>
    injection h with h; subst h
    exact set _ _ fun hx => absurd (by rw [hx]) (h1 r)
  | setGap x g =>
    injection h with h; subst h
    exact set _ _ fun hx => absurd (by rw [hx]) (h2 g)
  | _ => injection h with h; subst h; exact set _ _ fun _ => ⟨rfl, rfl, rfl⟩

/-- The schedule of a device so far. -/
structure OnTime (w : Bytes → Time) (d : DevId) (s : Sys) : Prop where
  split : ∃ A Q, acceptedT d s.log = A ++ Q ∧ Q.map Prod.snd = (s.dev d).queue ∧ begunT d s.log = fifo w 0 A ∧
    ((s.dev d).busy = true → ∃ dest, txc d s.pending = [(freeAfter w 0 A, dest)]) ∧
    ((s.dev d).busy = false → freeAfter w 0 A ≤ s.now)
  past : ∀ x ∈ acceptedT d s.log, x.1 ≤ s.now

theorem onTime_initial {w : Bytes → Time} {d : DevId} {s : Sys} (h0 : Initial s) : OnTime w d s where
  split := ⟨[], [], by rw [h0.log]; rfl, by rw [(h0.idle d).2.2.1]; rfl, by rw [h0.log]; rfl,
    fun hb => absurd hb (by rw [(h0.idle d).1]; simp), fun _ => Nat.zero_le _⟩
  past := by rw [h0.log]; intro x hx; cases hx

theorem onTime_step {E : Env} {d : DevId} {s s' : Sys} {op : Op} {w : Bytes → Time}
    (hw : ∀ f, E.txTime (s.dev d).rate f.length + (s.dev d).gap = w f) (hi : Inv s) (ho : OnTime w d s)
    (h : step E s op = .ok s') : OnTime w d s' := by
  have hts := (clock_step hi.clock h).2
  have hnow := hts.now
  have hfut := (clock_step hi.clock h).1.future
  obtain ⟨⟨A, Q, hA, hQ, hB, hbusy, hidle⟩, hpast⟩ := ho
  have past : ∀ {acc : List Bytes}, acceptedT d s'.log = acceptedT d s.log ++ acc.map (fun f => (s'.now, f)) →
      ∀ x ∈ acceptedT d s'.log, x.1 ≤ s'.now := by
    intro acc ha x hx
    rw [ha] at hx
    rcases List.mem_append.mp hx with hx | hx
    · have := hpast x hx; omega
    · obtain ⟨f, _, rfl⟩ := List.mem_map.mp hx
      exact Nat.le_refl _
  cases devStep_step hi.dev h d with
  | keep acc kb kc kt kacc kq kl =>
    have ha := acceptedT_step hts kl
    have hb := begunT_step kl
    refine ⟨⟨A, Q ++ acc.map (fun f => (s'.now, f)), by rw [ha, hA, List.append_assoc], ?_, ?_, ?_, ?_⟩, past ha⟩
    · rw [kq, List.map_append, hQ, List.map_map]; simp [Function.comp_def]
    · rw [hb, hB]; simp
    · rw [kb, kt]; exact hbusy
    · rw [kb]; intro hb; have := hidle hb; omega
  | start g dest hs kb kb' kc kq kt kl =>
    have ha := acceptedT_step hts kl
    have hb := begunT_step kl
    have hq0 : (s.dev d).queue = [] := ((hi.dev d).ready kb).2.1
    have hQ0 : Q = [] := by rw [hq0] at hQ; simpa using hQ
    subst hQ0
    rw [List.append_nil] at hA
    have hfree : freeAfter w 0 A ≤ s'.now := by have := hidle kb; omega
    have hmax : max s'.now (freeAfter w 0 A) = s'.now := by omega
    refine ⟨⟨A ++ [(s'.now, g)], [], by rw [ha, hA]; simp, by rw [kq]; rfl, ?_, ?_, ?_⟩, past ha⟩
    · rw [hb, hB, fifo_append]; simp [fifo, hmax]
    · intro _
      refine ⟨dest, ?_⟩
      rw [kt, freeAfter_append]
      simp only [freeAfter, hmax, hw]
    · rw [kb']; intro hh; cases hh
  | stop f dest kb kb' kc kq kq' kt kl =>
    have ha := acceptedT_step hts kl
    have hb := begunT_step kl
    obtain ⟨dest', ht⟩ := hbusy kb
    rw [kt] at ht
    injection ht with ht _
    injection ht with ht _
    refine ⟨⟨A, Q, by rw [ha, hA]; simp, by rw [hQ, kq, kq'], by rw [hb, hB]; simp, ?_, fun _ => by omega⟩, past ha⟩
    rw [kb']; intro hh; cases hh
  | next f g dest rest kb kb' kc kc' kq kq' kt kt' kl =>
    have ha := acceptedT_step hts kl
    have hb := begunT_step kl
    obtain ⟨dest', ht⟩ := hbusy kb
    rw [kt] at ht
    injection ht with ht _
    injection ht with ht _
    rw [kq] at hQ
    cases Q with
    | nil => cases hQ
    | cons x Q =>
      obtain ⟨t, g'⟩ := x
      simp only [List.map_cons, List.cons.injEq] at hQ
      obtain ⟨rfl, hQ⟩ := hQ
      have htl : t ≤ s.now := hpast (t, g') (by rw [hA]; simp)
      have hmax : max t (freeAfter w 0 A) = s'.now := by omega
      refine ⟨⟨A ++ [(t, g')], Q, by rw [ha, hA]; simp, by rw [hQ, kq'], ?_, ?_, ?_⟩, past ha⟩
      · rw [hb, hB, fifo_append]; simp [fifo, hmax]
      · intro _
        refine ⟨dest, ?_⟩
        rw [kt', freeAfter_append]
        simp only [freeAfter, hmax, hw]
      · rw [kb']; intro hh; cases hh

theorem onTime_exec {E : Env} {d : DevId} {w : Bytes → Time} : ∀ (ops : List Op) {s s' : Sys}, SteadyRate d ops →
    (∀ f, E.txTime (s.dev d).rate f.length + (s.dev d).gap = w f) → Inv s → OnTime w d s → exec E s ops = .ok s' →
    OnTime w d s'
  | [], s, s', _, _, _, ho, h => by injection h with h; subst h; exact ho
  | op :: ops, s, s', hst, hw, hi, ho, h => by
    simp only [exec] at h
    rw [Outcome.bind_eq_ok] at h
    obtain ⟨s1, h1, h2⟩ := h
    have hsp := speed_step (d := d) (fun r hr => hst.1 r (by simp [hr])) (fun g hg => hst.2 g (by simp [hg])) h1
    refine onTime_exec ops ⟨fun r hr => hst.1 r (by simp [hr]), fun g hg => hst.2 g (by simp [hg])⟩ ?_ (inv_step hi h1)
      (onTime_step hw hi ho h1) h2
    intro f
    rw [hsp.1, hsp.2.1]; exact hw f

/-! ### Waiting times -/

theorem fifo_steps (w : Bytes → Time) (free : Time) (l : List (Time × Bytes)) :
    (fifo w free l).IsChain (fun a b => a.1 + w a.2 ≤ b.1) := by
  induction l generalizing free with
  | nil => exact .nil
  | cons a l ih =>
    obtain ⟨t, f⟩ := a
    have := ih (max t free + w f)
    cases l with
    | nil => exact .singleton _
    | cons b l =>
      obtain ⟨t', f'⟩ := b
      refine .cons_cons ?_ this
      simp only [fifo]
      omega

theorem chain_right {α : Type} {R : α → α → Prop} : ∀ {l m : List α}, (l ++ m).IsChain R → m.IsChain R
  | [], _, h => h
  | [a], [], _ => .nil
  | [a], b :: m, h => (List.isChain_cons_cons.mp h).2
  | a :: b :: l, m, h => chain_right (l := b :: l) (List.isChain_cons_cons.mp h).2

theorem chain_load (w : Bytes → Time) : ∀ (m : List (Time × Bytes)) {a b : Time × Bytes} {l : List (Time × Bytes)},
    (a :: (m ++ b :: l)).IsChain (fun a b => a.1 + w a.2 ≤ b.1) → a.1 + load w ((a :: m).map Prod.snd) ≤ b.1
  | [], a, b, l, h => by
    have := (List.isChain_cons_cons.mp h).1
    simpa [load] using this
  | x :: m, a, b, l, h => by
    have h1 := List.isChain_cons_cons.mp h
    have h2 := chain_load w m h1.2
    have h3 := h1.1
    simp only [load, List.map_cons, List.sum_cons] at h2 ⊢
    omega

theorem freeAfter_le (w : Bytes → Time) (n : Time) : ∀ (Q : List (Time × Bytes)) (F : Time), (∀ x ∈ Q, x.1 ≤ n) →
    freeAfter w F Q ≤ max F n + load w (Q.map Prod.snd)
  | [], F, _ => by simp only [freeAfter]; omega
  | (t, f) :: Q, F, h => by
    have h1 := h (t, f) (by simp)
    have h2 := freeAfter_le w n Q (max t F + w f) fun x hx => h x (by simp [hx])
    simp only [freeAfter, load, List.map_cons, List.sum_cons] at h2 h1 ⊢
    omega

theorem load_le_of_suffix (w : Bytes → Time) {l m : List Bytes} (h : l <:+ m) : load w l ≤ load w m := by
  obtain ⟨k, rfl⟩ := h
  simp [load]

/-- The last `n` elements. -/
theorem suffix_drop {α : Type} {l m : List α} {n : Nat} (h : l <:+ m) (hl : l.length ≤ n) : l <:+ m.drop (m.length - n) := by
  obtain ⟨k, rfl⟩ := h
  rw [List.length_append, List.drop_append]
  rw [show k.length + l.length - n - k.length = 0 by omega, List.drop_zero]
  exact ⟨_, rfl⟩

/-- No accepted frame waits longer than the frames that can be in front of it take. -/
def Prompt (w : Bytes → Time) (cap : Nat) (A : List (Time × Bytes)) : Prop :=
  ∀ A1 x A2, A = A1 ++ x :: A2 →
    max x.1 (freeAfter w 0 A1) ≤ x.1 + load w ((A1.map Prod.snd).drop (A1.length - cap))

theorem prompt_snoc {w : Bytes → Time} {cap : Nat} {A : List (Time × Bytes)} {x : Time × Bytes} (h : Prompt w cap A)
    (hx : max x.1 (freeAfter w 0 A) ≤ x.1 + load w ((A.map Prod.snd).drop (A.length - cap))) : Prompt w cap (A ++ [x]) := by
  intro A1 y A2 hA
  rcases List.eq_nil_or_concat A2 with rfl | ⟨A3, z, rfl⟩
  · have := List.append_inj' hA rfl
    obtain ⟨rfl, h2⟩ := this
    injection h2 with h2 _
    subst h2
    exact hx
  · rw [List.concat_eq_append, ← List.cons_append, ← List.append_assoc] at hA
    have := List.append_inj' hA rfl
    exact h A1 y A3 this.1

theorem prompt_step {E : Env} {d : DevId} {s s' : Sys} {op : Op} {w : Bytes → Time}
    (hi : Inv s) (ho : OnTime w d s) (hlog : ∀ e ∈ s.log, e.1 ≤ s.now)
    (hp : Prompt w (s.dev d).cap (acceptedT d s.log)) (hc' : (s'.dev d).cap = (s.dev d).cap)
    (h : step E s op = .ok s') : Prompt w (s.dev d).cap (acceptedT d s'.log) := by
  have hts := (clock_step hi.clock h).2
  obtain ⟨⟨A, Q, hA, hQ, hB, hbusy, hidle⟩, hpast⟩ := ho
  cases devStep_step hi.dev h d with
  | keep acc kb kc kt kacc kq kl =>
    rw [acceptedT_step hts kl]
    rcases kacc with rfl | ⟨hb, dest, f, rfl, _⟩
    · simpa using hp
    · refine prompt_snoc hp ?_
      have hnow := hts.now
      have hlen : Q.length + 1 ≤ (s.dev d).cap := by
        have h1 := (devInv_step hi.dev h d).cap
        rw [kq, hc', ← hQ] at h1
        simpa using h1
      -- the current frame
      obtain ⟨g, _, _, hcur, _⟩ := (hi.dev d).busy hb
      have hne : A ≠ [] := by
        intro hA0
        have h1 := (hi.dev d).log.beg
        rw [hcur, ← begunT_frames, hB, hA0] at h1
        simp [fifo] at h1
      obtain ⟨A', y, hA'⟩ : ∃ A' y, A = A' ++ [y] := by
        rcases List.eq_nil_or_concat A with h0 | ⟨A', y, h1⟩
        · exact absurd h0 hne
        · exact ⟨A', y, by rw [h1, List.concat_eq_append]⟩
      obtain ⟨ty, fy⟩ := y
      have hlast : max ty (freeAfter w 0 A') ≤ s.now := by
        have hm : (max ty (freeAfter w 0 A'), fy) ∈ begunT d s.log := by
          rw [hB, hA', fifo_append]; simp [fifo]
        unfold begunT projT at hm
        obtain ⟨e, he, hee⟩ := List.mem_filterMap.mp hm
        have := hlog e he
        rw [Option.map_eq_some_iff] at hee
        obtain ⟨_, _, hee⟩ := hee
        injection hee with h1 _
        omega
      have hfA : freeAfter w 0 A ≤ s.now + w fy := by
        rw [hA', freeAfter_append]
        simp only [freeAfter]
        omega
      have hfQ : freeAfter w 0 (A ++ Q) ≤ s'.now + w fy + load w (Q.map Prod.snd) := by
        rw [freeAfter_append]
        have := freeAfter_le w s.now Q (freeAfter w 0 A) fun x hx => hpast x (by rw [hA]; simp [hx])
        omega
      have hsuf : (fy :: Q.map Prod.snd) <:+ ((acceptedT d s.log).map Prod.snd) := by
        rw [hA, hA']
        exact ⟨A'.map Prod.snd, by simp⟩
      have hl2 := load_le_of_suffix w (suffix_drop (n := (s.dev d).cap) hsuf (by simpa using hlen))
      rw [List.length_map] at hl2
      have hl3 : load w (fy :: Q.map Prod.snd) = w fy + load w (Q.map Prod.snd) := by simp [load]
      rw [hl3, hA] at hl2
      rw [hA]
      simp only
      omega
  | start g dest hs kb kb' kc kq kt kl =>
    rw [acceptedT_step hts kl]
    refine prompt_snoc hp ?_
    have hq0 : (s.dev d).queue = [] := ((hi.dev d).ready kb).2.1
    have hQ0 : Q = [] := by rw [hq0] at hQ; simpa using hQ
    subst hQ0
    rw [List.append_nil] at hA
    have := hidle kb
    have hnow := hts.now
    rw [hA]
    simp only
    omega
  | stop f dest kb kb' kc kq kq' kt kl => rw [acceptedT_step hts kl]; simpa using hp
  | next f g dest rest kb kb' kc kc' kq kq' kt kt' kl => rw [acceptedT_step hts kl]; simpa using hp

theorem prompt_exec {E : Env} {d : DevId} {w : Bytes → Time} {cap : Nat} : ∀ (ops : List Op) {s s' : Sys}, SteadyRate d ops →
    (∀ f, E.txTime (s.dev d).rate f.length + (s.dev d).gap = w f) → (s.dev d).cap = cap → Inv s → OnTime w d s →
    LogSorted s → Prompt w cap (acceptedT d s.log) → exec E s ops = .ok s' → Prompt w cap (acceptedT d s'.log)
  | [], s, s', _, _, _, _, _, _, hp, h => by injection h with h; subst h; exact hp
  | op :: ops, s, s', hst, hw, hcap, hi, ho, hl, hp, h => by
    simp only [exec] at h
    rw [Outcome.bind_eq_ok] at h
    obtain ⟨s1, h1, h2⟩ := h
    have hsp := speed_step (d := d) (fun r hr => hst.1 r (by simp [hr])) (fun g hg => hst.2 g (by simp [hg])) h1
    subst hcap
    refine prompt_exec ops ⟨fun r hr => hst.1 r (by simp [hr]), fun g hg => hst.2 g (by simp [hg])⟩ ?_ hsp.2.2
      (inv_step hi h1) (onTime_step hw hi ho h1) (logSorted_step hi hl h1) (prompt_step hi ho hl.2 hp hsp.2.2 h1) h2
    intro f
    rw [hsp.1, hsp.2.1]; exact hw f

/-- No operation changes the capacity of a queue. -/
theorem cap_step {E : Env} {s s' : Sys} {op : Op} (h : step E s op = .ok s') (d : DevId) :
    (s'.dev d).cap = (s.dev d).cap := by
  by_cases h1 : (∃ r, op = .setRate d r) ∨ ∃ g, op = .setGap d g
  · rcases h1 with ⟨r, rfl⟩ | ⟨r, rfl⟩ <;>
    · injection h with h; subst h
      simp [Sys.setDev]
  · exact (speed_step (d := d) (fun r hr => h1 (.inl ⟨r, hr⟩)) (fun r hr => h1 (.inr ⟨r, hr⟩)) h).2.2

end Verif
