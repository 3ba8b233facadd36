import Verif.Lemmas.NetTx
import Verif.Spec.Channel
/-! The address indices of the LEO channel and the roster of a channel. -/

namespace Verif
open Spec

theorem Mac48.toNat_inj {a b : Mac48} (h : a.toNat = b.toNat) : a = b := by
  obtain ⟨a0, a1, a2, a3, a4, a5⟩ := a
  obtain ⟨b0, b1, b2, b3, b4, b5⟩ := b
  simp only [Mac48.toNat] at h
  have := a0.toNat_lt; have := a1.toNat_lt; have := a2.toNat_lt
  have := a3.toNat_lt; have := a4.toNat_lt; have := a5.toNat_lt
  have := b0.toNat_lt; have := b1.toNat_lt; have := b2.toNat_lt
  have := b3.toNat_lt; have := b4.toNat_lt; have := b5.toNat_lt
  simp only [Mac48.mk.injEq, ← UInt8.toNat_inj]
  omega

/-- Keys strictly ascending. -/
def SortedKeys (m : List (Mac48 × DevId)) : Prop := m.Pairwise (fun x y => x.1.toNat < y.1.toNat)

theorem mem_mapInsert {a : Mac48} {d : DevId} {m : List (Mac48 × DevId)} (hm : SortedKeys m)
    {b : Mac48} {y : DevId} :
    (b, y) ∈ mapInsert a d m ↔ (b = a ∧ y = d) ∨ (b ≠ a ∧ (b, y) ∈ m) := by
  induction m with
  | nil => simp [mapInsert]
  | cons p rest ih =>
    obtain ⟨k, e⟩ := p
    have h' := List.pairwise_cons.mp hm
    have hlt : ∀ x ∈ rest, k.toNat < x.1.toNat := h'.1
    simp only [mapInsert]
    split
    · rename_i hak
      subst hak
      have : ∀ z, (a, z) ∉ rest := fun z hz => absurd (hlt (a, z) hz) (Nat.lt_irrefl a.toNat)
      simp only [List.mem_cons, Prod.mk.injEq]
      constructor
      · rintro (h | h)
        · exact Or.inl h
        · refine Or.inr ⟨?_, Or.inr h⟩
          rintro rfl; exact this _ h
      · rintro (h | ⟨h1, h2 | h2⟩)
        · exact Or.inl h
        · exact absurd h2.1 h1
        · exact Or.inr h2
    · rename_i hak
      split
      · rename_i hl
        have hnot : ∀ z, (a, z) ∉ (k, e) :: rest := by
          intro z hz
          rcases List.mem_cons.mp hz with hz | hz
          · injection hz with h1 _; exact hak h1
          · have : k.toNat < a.toNat := hlt (a, z) hz
            omega
        simp only [List.mem_cons (a := (b, y)) (b := (a, d)), Prod.mk.injEq]
        constructor
        · rintro (h | h)
          · exact Or.inl h
          · refine Or.inr ⟨?_, h⟩
            rintro rfl; exact hnot _ h
        · rintro (h | ⟨_, h2⟩)
          · exact Or.inl h
          · exact Or.inr h2
      · simp only [List.mem_cons, ih h'.2, Prod.mk.injEq]
        constructor
        · rintro (⟨rfl, rfl⟩ | h | ⟨h1, h2⟩)
          · exact Or.inr ⟨fun h => hak h.symm, Or.inl ⟨rfl, rfl⟩⟩
          · exact Or.inl h
          · exact Or.inr ⟨h1, Or.inr h2⟩
        · rintro (h | ⟨h1, h2 | h2⟩)
          · exact Or.inr (Or.inl h)
          · exact Or.inl h2
          · exact Or.inr (Or.inr ⟨h1, h2⟩)

theorem sorted_mapInsert {a : Mac48} {d : DevId} {m : List (Mac48 × DevId)} (hm : SortedKeys m) :
    SortedKeys (mapInsert a d m) := by
  induction m with
  | nil => simp [mapInsert, SortedKeys]
  | cons p rest ih =>
    obtain ⟨k, e⟩ := p
    have h' := List.pairwise_cons.mp hm
    simp only [mapInsert]
    split
    · rename_i hak
      subst hak
      exact List.pairwise_cons.mpr ⟨h'.1, h'.2⟩
    · rename_i hak
      split
      · rename_i hl
        refine List.pairwise_cons.mpr ⟨?_, hm⟩
        intro x hx
        rcases List.mem_cons.mp hx with rfl | hx
        · exact hl
        · have := h'.1 x hx
          simp only at this ⊢
          omega
      · rename_i hl
        refine List.pairwise_cons.mpr ⟨?_, ih h'.2⟩
        rintro ⟨b, y⟩ hx
        rcases (mem_mapInsert h'.2).mp hx with ⟨rfl, rfl⟩ | ⟨_, hx⟩
        · have : b.toNat ≠ k.toNat := fun h => hak (Mac48.toNat_inj h)
          simp only; omega
        · exact h'.1 _ hx

theorem mem_mapErase {a b : Mac48} {y : DevId} {m : List (Mac48 × DevId)} :
    (b, y) ∈ mapErase a m ↔ (b, y) ∈ m ∧ b ≠ a := by
  simp [mapErase]

theorem sorted_mapErase {a : Mac48} {m : List (Mac48 × DevId)} (hm : SortedKeys m) :
    SortedKeys (mapErase a m) := List.Pairwise.filter _ hm

/-! ### The roster -/

/-- Not an attachment or detachment. -/
def RosterFreeEv : Ev → Prop
  | .attachRet .. | .detachRet .. => False
  | _ => True

theorem roster_append_free {c : ChanId} {log l : List (Time × Ev)} (h : ∀ e ∈ l, RosterFreeEv e.2) :
    roster c (log ++ l) = roster c log := by
  unfold roster
  rw [List.foldl_append]
  generalize log.foldl _ _ = r
  induction l generalizing r with
  | nil => rfl
  | cons e l ih =>
    rw [List.foldl_cons]
    have he := h e (by simp)
    have : rosterStep c r e.2 = r := by
      obtain ⟨t, e⟩ := e
      cases e <;> first | rfl | exact absurd he (by simp [RosterFreeEv])
    rw [this]
    exact ih (fun e' he' => h e' (List.mem_cons_of_mem _ he')) r

theorem rosterFree_entries (now : Time) (c : ChanId) (f : Bytes) (src : DevId) (t : Time) (rs : List Recv) :
    ∀ e ∈ rs.map (Recv.entry now c f src t), RosterFreeEv e.2 := by
  intro e he
  obtain ⟨r, _, rfl⟩ := List.mem_map.mp he
  exact trivial

theorem rosterFree_txState {E : Env} {t : Sys} {d : DevId} {f : Bytes} {dest : Addr} {c : ChanId} {src : DevId}
    {rs : List Recv} {b : Bool} (c' : ChanId) :
    roster c' (txState E t d f dest c src rs b).log = roster c' t.log := by
  simp only [txState]
  apply roster_append_free
  intro e he
  simp only [List.mem_append] at he
  rcases he with he | he | he
  · simp at he; rcases he with rfl | rfl <;> exact trivial
  · exact rosterFree_entries _ _ _ _ _ _ e he
  · split at he
    · cases he
    · simp at he; subst he; exact trivial

/-- Addresses and types of devices and the rosters change only by their operations. -/
theorem ids_step {E : Env} {s s' : Sys} {op : Op} (h : step E s op = .ok s') :
    ((∀ x, (s'.dev x).addr = (s.dev x).addr ∧ (s'.dev x).side = (s.dev x).side) ∧
      (∀ c, roster c s'.log = roster c s.log) ∧ s'.chan = s.chan) ∨
    (∃ d c, op = .attach d c) ∨ (∃ c slot, op = .detach c slot) ∨ (∃ d m, op = .setAddress d (.mac m)) ∨
    (∃ d sd, op = .setSide d sd) := by
  have quiet : ∀ (v : DevId → Dev) (now : Time) (ps : List Pending) (l : List (Time × Ev)),
      (∀ x, (v x).addr = (s.dev x).addr ∧ (v x).side = (s.dev x).side) → (∀ e ∈ l, RosterFreeEv e.2) →
      s' = ⟨v, s.chan, now, ps, s.log ++ l⟩ →
      (∀ x, (s'.dev x).addr = (s.dev x).addr ∧ (s'.dev x).side = (s.dev x).side) ∧
      (∀ c, roster c s'.log = roster c s.log) ∧ s'.chan = s.chan := by
    rintro v now ps l h1 h2 rfl
    exact ⟨h1, fun c => roster_append_free h2, rfl⟩
  have set : ∀ (d : DevId) (v : Dev), v.addr = (s.dev d).addr → v.side = (s.dev d).side →
      ∀ x, ((s.setDev d v).dev x).addr = (s.dev x).addr ∧ ((s.setDev d v).dev x).side = (s.dev x).side := by
    intro d v h1 h2 x
    by_cases hx : x = d
    · subst hx; simp [Sys.setDev, h1, h2]
    · simp [Sys.setDev, hx]
  cases op with
  | send d p dest proto =>
    left
    rcases send_ok h with ⟨_, rfl⟩ | ⟨hlu, _, m, hm, f, hf, hcase⟩
    · exact quiet s.dev s.now s.pending _ (fun x => ⟨rfl, rfl⟩)
        (by intro e he; simp at he; rcases he with rfl | rfl <;> exact trivial) rfl
    · rcases hcase with ⟨_, rfl⟩ | ⟨hlen, hb, rfl⟩ | ⟨hlen, hb, g, rest, s3, hq, hts, rfl⟩
      · exact quiet s.dev s.now s.pending _ (fun x => ⟨rfl, rfl⟩)
          (by intro e he; simp at he; rcases he with rfl | rfl | rfl <;> exact trivial) rfl
      · exact quiet _ s.now s.pending _ (fun x => by by_cases hx : x = d <;> simp [hx])
          (by intro e he; simp at he; rcases he with rfl | rfl <;> exact trivial) rfl
      · obtain ⟨_, c, src, rs, b, hchan, _, _, rfl⟩ := transmitStart_ok hts
        refine ⟨fun x => by by_cases hx : x = d <;> simp [txState, hx], ?_, rfl⟩
        intro c'
        rw [roster_append_free (by intro e he; simp at he; rcases he with rfl; exact trivial), rosterFree_txState]
        exact roster_append_free (by intro e he; simp at he; rcases he with rfl | rfl | rfl <;> exact trivial)
  | sendFrom =>
    injection h with h; subst h; left
    exact quiet s.dev s.now s.pending _ (fun x => ⟨rfl, rfl⟩)
      (by intro e he; simp at he; rcases he with rfl; exact trivial) rfl
  | attach d c => exact Or.inr (Or.inl ⟨d, c, rfl⟩)
  | detach c slot => exact Or.inr (Or.inr (Or.inl ⟨c, slot, rfl⟩))
  | setAddress d a =>
    cases a with
    | other => cases h
    | mac m => exact Or.inr (Or.inr (Or.inr (Or.inl ⟨d, m, rfl⟩)))
  | setSide d sd => exact Or.inr (Or.inr (Or.inr (Or.inr ⟨d, sd, rfl⟩)))
  | run =>
    left
    simp only [step, run] at h
    split at h
    · injection h with h; subst h; exact ⟨fun x => ⟨rfl, rfl⟩, fun _ => rfl, rfl⟩
    · rename_i p ps hp
      obtain ⟨t, a⟩ := p
      cases a with
      | receive d f src rx =>
        obtain ⟨l, hl, rfl⟩ := receive_ok h
        refine quiet s.dev t ps _ (fun x => ⟨rfl, rfl⟩) ?_ rfl
        intro e he
        rcases List.mem_cons.mp he with rfl | he
        · exact trivial
        · obtain ⟨x, hx, rfl⟩ := List.mem_map.mp he
          have := hl x hx
          cases x <;> first | exact trivial | (exfalso; exact this)
      | txComplete d dest =>
        obtain ⟨hb, _, f, hcur, hcase⟩ := transmitComplete_ok h
        rcases hcase with ⟨hq, rfl⟩ | ⟨q, rest, hq, hts⟩
        · exact quiet _ t ps _ (fun x => by by_cases hx : x = d <;> simp [hx])
            (by intro e he; simp at he; rcases he with rfl; exact trivial) rfl
        · obtain ⟨_, c, src, rs, b, hchan, _, _, hs3⟩ := transmitStart_ok hts
          rw [hs3]
          refine ⟨fun x => by by_cases hx : x = d <;> simp [txState, hx], ?_, rfl⟩
          intro c'
          rw [rosterFree_txState]
          exact roster_append_free (by intro e he; simp at he; rcases he with rfl | rfl | rfl <;> exact trivial)
  | wait dt =>
    left
    simp only [step] at h
    split at h <;> injection h with h <;> subst h <;> exact ⟨fun x => ⟨rfl, rfl⟩, fun _ => rfl, rfl⟩
  | _ => injection h with h; subst h; left; exact ⟨set _ _ rfl rfl, fun _ => rfl, rfl⟩

theorem roster_attach {c : ChanId} {log : List (Time × Ev)} {t t' : Time} {d : DevId} {c' : ChanId} {slot : Nat} :
    roster c (log ++ [(t, .linkChange d), (t', .attachRet d c' slot)]) =
      if c' = c then (slots c log ++ [d], if d ∈ members c log then members c log else members c log ++ [d])
      else roster c log := by
  unfold slots members
  have : roster c (log ++ [(t, .linkChange d), (t', .attachRet d c' slot)]) =
      rosterStep c (roster c log) (.attachRet d c' slot) := by
    unfold roster; rw [List.foldl_append]; rfl
  rw [this]
  rfl

theorem roster_detach {c : ChanId} {log l : List (Time × Ev)} {t : Time} {c' : ChanId} {slot : Nat} {r : Bool}
    (hl : ∀ e ∈ l, RosterFreeEv e.2) :
    roster c (log ++ (l ++ [(t, .detachRet c' slot r)])) =
      if c' = c then (slots c log, match (slots c log)[slot]? with
        | some d => (members c log).filter (fun x => x ≠ d) | none => members c log)
      else roster c log := by
  have h0 := roster_append_free (c := c) (log := log) hl
  unfold slots members
  have : roster c (log ++ (l ++ [(t, .detachRet c' slot r)])) =
      rosterStep c (roster c (log ++ l)) (.detachRet c' slot r) := by
    rw [← List.append_assoc]
    unfold roster; rw [List.foldl_append]; rfl
  rw [this, h0]
  rfl

end Verif
