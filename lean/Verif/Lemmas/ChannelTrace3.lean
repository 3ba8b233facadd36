import Verif.Lemmas.ChannelTrace2
/-! Effects of code connected to the trace source of a channel on the frame that is being delivered. -/

namespace Verif
open Spec

/-! ### Loops with different connected code -/

theorem leoLoopK_congr {E : Env} {k k' : Sinks} {c : ChanId} {g : Bool} {f : Bytes} {src : DevId} {t : Time} (n : Nat) :
    ∀ (i : Nat) (rest : List (Mac48 × DevId)) (s : Sys) (r : Bool), (∀ j, i ≤ j → ∀ a, k (.txrxAt c a j) = k' (.txrxAt c a j)) →
    leoLoopK E k c g f src t n i rest s r = leoLoopK E k' c g f src t n i rest s r := by
  induction n with
  | zero => intro i rest s r h; cases rest <;> rfl
  | succ n ih =>
    intro i rest s r h
    cases rest with
    | nil => rfl
    | cons x rest =>
      obtain ⟨a, d⟩ := x
      rw [leoLoopK, leoLoopK, h i (Nat.le_refl _) a]
      refine congrArg _ ?_
      funext r'
      exact ih _ _ _ _ fun j hj => h j (by omega)

theorem islLoopK_congr {E : Env} {k k' : Sinks} {c : ChanId} {f : Bytes} {src : DevId} {slot : Nat} {t : Time} (n : Nat) :
    ∀ (i : Nat) (s : Sys), (∀ j, i ≤ j → k (.txrx j) = k' (.txrx j)) →
    islLoopK E k c f src slot t n i s = islLoopK E k' c f src slot t n i s := by
  induction n with
  | zero => intro i s h; rw [islLoopK, islLoopK]
  | succ n ih =>
    intro i s h
    rw [islLoopK, islLoopK]
    cases (s.chan c).link[i]? with
    | none => rfl
    | some d =>
      simp only
      rw [h i (Nat.le_refl _), ih _ _ fun j hj => h j (by omega)]
      refine congrArg _ (congrArg _ ?_)
      funext r'
      exact ih _ _ fun j hj => h j (by omega)

theorem restAfter_same {l rest : List (Mac48 × DevId)} {a : Mac48} : restAfter l l rest a = rest := by
  simp [restAfter]

/-- One round with connected code that does nothing. -/
theorem deliverK_silent {E : Env} {k : Sys → Outcome Sys} (hk : ∀ t, k t = .ok t) {s : Sys} {c : ChanId} {f : Bytes}
    {src dst : DevId} {t : Time} : deliverK E k s c f src dst t = deliver E s c f src dst t := by
  have : k = fun t => .ok t := funext hk
  rw [this, deliverK_plain]

theorem recvOf_same {E : Env} {s s' : Sys} (hn : s'.now = s.now) {c : ChanId} {src : DevId} {t : Time} {dst : DevId}
    (hs : (s'.dev src).node = (s.dev src).node) (hp : (s'.dev src).txPower = (s.dev src).txPower)
    (hd : (s'.dev dst).node = (s.dev dst).node) : recvOf E s' c src t dst = recvOf E s c src t dst := by
  unfold recvOf; rw [hn, hs, hp, hd]

/-- Rounds before the one in which connected code does something. -/
theorem leoLoopK_before {E : Env} {k : Sinks} {c : ChanId} {g : Bool} {f : Bytes} {src : DevId} {t : Time} {i0 : Nat}
    (hk : ∀ j, j ≠ i0 → ∀ a s, k (.txrxAt c a j) s = .ok s) (pre : List (Mac48 × DevId)) :
    ∀ (n i : Nat) (rest : List (Mac48 × DevId)) (s : Sys) (r : Bool), i + pre.length = i0 →
    leoLoopK E k c g f src t (n + pre.length) i (pre ++ rest) s r =
      (deliverAll E c f src t (pre.map (·.2)) s r >>= fun x => leoLoopK E k c g f src t n i0 rest x.1 x.2) := by
  induction pre with
  | nil =>
    intro n i rest s r hi
    simp only [List.length_nil, Nat.add_zero, List.nil_append, List.map_nil, deliverAll, Outcome.ok_bind] at hi ⊢
    rw [hi]
  | cons x pre ih =>
    intro n i rest s r hi
    obtain ⟨a, d⟩ := x
    simp only [List.length_cons] at hi
    rw [List.cons_append, List.map_cons, List.length_cons, ← Nat.add_assoc, leoLoopK, deliverAll,
      deliverK_silent (hk i (by omega) a)]
    cases hd : deliver E s c f src d t with
    | fail e => rfl
    | ok y =>
      obtain ⟨s', b⟩ := y
      simp only [Outcome.ok_bind, deliver_chan hd, restAfter_same]
      exact ih n (i + 1) rest s' _ (by omega)

theorem islLoopK_before {E : Env} {k : Sinks} {c : ChanId} {f : Bytes} {src : DevId} {slot : Nat} {t : Time} {i0 : Nat}
    (hk : ∀ j, j ≠ i0 → ∀ s, k (.txrx j) s = .ok s) (m : Nat) :
    ∀ (n i : Nat) (s : Sys), i + m = i0 → i0 ≤ (s.chan c).link.length →
    islLoopK E k c f src slot t (n + m) i s =
      (deliverOthers E c f src slot t (((s.chan c).link.drop i).take m) i s >>= fun x => islLoopK E k c f src slot t n i0 x) := by
  induction m with
  | zero =>
    intro n i s hi _
    simp only [Nat.add_zero, List.take_zero, deliverOthers, Outcome.ok_bind] at hi ⊢
    rw [hi]
  | succ m ih =>
    intro n i s hi hl
    have hlt : i < (s.chan c).link.length := by omega
    rw [← Nat.add_assoc, islLoopK, List.getElem?_eq_getElem hlt, List.drop_eq_getElem_cons hlt, List.take_succ_cons, deliverOthers]
    simp only
    split
    · exact ih n (i + 1) s (by omega) hl
    · rw [deliverK_silent (hk i (by omega))]
      cases hd : deliver E s c f src (s.chan c).link[i] t with
      | fail e => rfl
      | ok y =>
        obtain ⟨s', b⟩ := y
        simp only [Outcome.ok_bind]
        have hc := deliver_chan hd
        rw [ih n (i + 1) s' (by omega) (by rw [hc]; exact hl), hc]

/-! ### Erasing the element under the iterator -/

/-- Rounds in which connected code does nothing leave the channels as they are. -/
theorem leoLoopK_chan {E : Env} {k : Sinks} {c : ChanId} {g : Bool} {f : Bytes} {src : DevId} {t : Time} {n : Nat} :
    ∀ {i : Nat}, (∀ j, i ≤ j → ∀ a s, k (.txrxAt c a j) s = .ok s) → ∀ (rest : List (Mac48 × DevId)) (s : Sys) (r : Bool)
    (x : Sys × Bool), leoLoopK E k c g f src t n i rest s r = .ok x → x.1.chan = s.chan := by
  induction n with
  | zero =>
    intro i _ rest s r x h
    cases rest with
    | nil => injection h with h; rw [← h]
    | cons y rest => cases h
  | succ n ih =>
    intro i hk rest s r x h
    cases rest with
    | nil => injection h with h; rw [← h]
    | cons y rest =>
      rw [leoLoopK, deliverK_silent (hk i (Nat.le_refl _) y.1), Outcome.bind_eq_ok] at h
      obtain ⟨z, h1, h2⟩ := h
      rw [ih (fun j hj => hk j (by omega)) _ _ _ _ h2]
      exact deliver_chan h1

theorem leoLoopK_erase {E : Env} {k : Sinks} {c : ChanId} {g : Bool} {f : Bytes} {src : DevId} {t : Time}
    {pre post : List (Mac48 × DevId)} {a : Mac48} {y : DevId} {e : Fault} {n : Nat} {s : Sys} {r r' : Bool} {s' : Sys}
    (hk : ∀ j, j ≠ pre.length → ∀ a s, k (.txrxAt c a j) s = .ok s)
    (hfail : ∀ u : Sys, u.dev = s.dev → u.chan = s.chan → k (.txrxAt c a pre.length) u = .fail e)
    (hplain : deliverAll E c f src t ((pre ++ (a, y) :: post).map (·.2)) s r = .ok (s', r'))
    (hy : (recvOf E s c src t y).isSome = true) :
    leoLoopK E k c g f src t (n + 1 + pre.length) 0 (pre ++ (a, y) :: post) s r = .fail e := by
  rw [leoLoopK_before hk pre (n + 1) 0 _ s r (by omega)]
  have happ : ∀ (l1 l2 : List DevId) (s : Sys) (r : Bool), deliverAll E c f src t (l1 ++ l2) s r =
      (deliverAll E c f src t l1 s r >>= fun x => deliverAll E c f src t l2 x.1 x.2) := by
    intro l1
    induction l1 with
    | nil => intros; rfl
    | cons d l1 ih =>
      intro l2 s r
      rw [List.cons_append, deliverAll, deliverAll]
      cases deliver E s c f src d t with
      | fail e => rfl
      | ok x => exact ih _ _ _
  rw [List.map_append, happ] at hplain
  rw [Outcome.bind_eq_ok] at hplain
  obtain ⟨⟨s1, r1⟩, h1, h2⟩ := hplain
  rw [h1, Outcome.ok_bind]
  obtain ⟨rfl, _⟩ := deliverAll_ok h1
  rw [List.map_cons, deliverAll, Outcome.bind_eq_ok] at h2
  obtain ⟨⟨s2, b⟩, h3, _⟩ := h2
  rw [leoLoopK, deliverK, h3]
  obtain ⟨rfl, rfl⟩ := deliver_ok h3
  rw [recvOf_addRecvs, hy]
  simp only [Outcome.ok_bind, if_true]
  have hf := hfail (addRecvs (addRecvs s c f src t (List.filterMap (recvOf E s c src t) (List.map (fun x => x.2) pre))) c
    f src t (recvOf E s c src t y).toList) rfl rfl
  rw [hf]
  rfl

/-! ### A broadcast that connected code keeps extending -/

theorem attach_isl {s : Sys} {z : DevId} {c : ChanId} (hk : (s.chan c).kind = .isl) :
    ∃ s', attach s z c = .ok s' ∧ s'.chan c = { s.chan c with link := (s.chan c).link ++ [z] } ∧ s'.now = s.now ∧
      (∀ x, (s'.dev x).node = (s.dev x).node ∧ (s'.dev x).txPower = (s.dev x).txPower ∧ (s'.dev x).addr = (s.dev x).addr) ∧
      ∃ l, s'.log = s.log ++ l ∧ receivers l = [] := by
  unfold attach
  simp only [hk]
  refine ⟨_, rfl, by simp [Sys.emit, Sys.setDev, Sys.setChan, hk], rfl, ?_, ?_⟩
  · intro x
    by_cases hx : x = z
    · subst hx; simp [Sys.emit, Sys.setDev, Sys.setChan]
    · simp [Sys.emit, Sys.setDev, Sys.setChan, hx]
  · exact ⟨[(s.now, .linkChange z), (s.now, .attachRet z c (s.chan c).link.length)], by simp [Sys.emit, Sys.setDev, Sys.setChan], rfl⟩

theorem islLoopK_endless {E : Env} {k : Sinks} {c : ChanId} {f : Bytes} {src : DevId} {slot : Nat} {t : Time} {z : Nat → DevId}
    {N : DevId → Option NodeId} {P : Power} {now : Time}
    (hk : ∀ i s, k (.txrx i) s = attach s (z i) c)
    (hz : ∀ i, ∀ s : Sys, s.now = now → (∀ x, (s.dev x).node = N x) → (s.dev src).txPower = P →
      (recvOf E s c src t (z i)).isSome = true) (hsrc : (N src).isSome = true) (n : Nat) :
    ∀ (i : Nat) (s : Sys), (s.chan c).kind = .isl → s.now = now → (∀ x, (s.dev x).node = N x) → (s.dev src).txPower = P →
    (∀ x ∈ (s.chan c).link, (N x).isSome = true) →
    (∃ j w, i ≤ j ∧ j ≠ slot ∧ (s.chan c).link[j]? = some w ∧ (recvOf E s c src t w).isSome = true) → slot < (s.chan c).link.length →
    islLoopK E k c f src slot t n i s = .fail .endlessLoop := by
  induction n with
  | zero =>
    rintro i s _ _ _ _ _ ⟨j, w, hij, _, hj, _⟩ _
    have hlt := (List.getElem?_eq_some_iff.mp hj).1
    rw [islLoopK, List.getElem?_eq_getElem (by omega)]
  | succ n ih =>
    rintro i s hkind hnow hN hP hall ⟨j, w, hij, hjs, hj, hw⟩ hslot
    have hlt := (List.getElem?_eq_some_iff.mp hj).1
    have hi : i < (s.chan c).link.length := by omega
    rw [islLoopK, List.getElem?_eq_getElem hi]
    simp only
    by_cases his : i = slot
    · rw [if_pos his]
      exact ih (i + 1) s hkind hnow hN hP hall ⟨j, w, by omega, hjs, hj, hw⟩ hslot
    · rw [if_neg his, deliverK, deliver_eq, hN, hN, if_pos ⟨hsrc, hall _ (List.getElem_mem hi)⟩]
      simp only [Outcome.ok_bind]
      cases hr : (recvOf E s c src t (s.chan c).link[i]).isSome with
      | false =>
        have hij' : i ≠ j := by
          rintro rfl
          rw [List.getElem?_eq_getElem hi] at hj
          injection hj with hj
          rw [hj, hw] at hr
          cases hr
        simp only [Bool.false_eq_true, if_false, Outcome.ok_bind]
        exact ih (i + 1) (addRecvs s c f src t _) hkind hnow hN hP hall ⟨j, w, by omega, hjs, hj, hw⟩ hslot
      | true =>
        simp only [if_true]
        rw [hk]
        obtain ⟨s', hs', hc', hnow', hdev', _⟩ := attach_isl (s := addRecvs s c f src t (recvOf E s c src t (s.chan c).link[i]).toList)
          (z := z i) (c := c) hkind
        rw [hs']
        simp only [Outcome.ok_bind]
        have hN' : ∀ x, (s'.dev x).node = N x := fun x => (hdev' x).1.trans (hN x)
        have hP' : (s'.dev src).txPower = P := (hdev' src).2.1.trans hP
        refine ih (i + 1) s' (by rw [hc']; exact hkind) (hnow'.trans hnow) hN' hP' ?_ ?_ ?_
        · intro x hx
          rw [hc'] at hx
          simp only [List.mem_append, List.mem_singleton] at hx
          rcases hx with hx | rfl
          · exact hall x hx
          · have := hz i s' (hnow'.trans hnow) hN' hP'
            unfold recvOf at this
            rw [hN' (z i)] at this
            cases hnz : N (z i) with
            | some _ => rfl
            | none => rw [hnz] at this; cases hx : (s'.dev src).node <;> rw [hx] at this <;> simp at this
        · refine ⟨(s.chan c).link.length, z i, by omega, by omega, ?_, hz i s' (hnow'.trans hnow) hN' hP'⟩
          rw [hc']
          exact List.getElem?_concat_length
        · rw [hc']
          simp only [List.length_append, List.length_singleton]
          exact Nat.lt_succ_of_lt hslot

end Verif
