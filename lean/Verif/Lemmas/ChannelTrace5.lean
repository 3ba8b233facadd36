import Verif.Lemmas.ChannelTrace4
/-! A device that is attached while a frame is being delivered. -/

namespace Verif
open Spec

theorem filter_mapInsert {a b : Mac48} {z : DevId} {m : List (Mac48 × DevId)} (hm : SortedKeys m) :
    (mapInsert b z m).filter (fun x => decide (a.toNat < x.1.toNat)) =
      if a.toNat < b.toNat then mapInsert b z (m.filter (fun x => decide (a.toNat < x.1.toNat)))
      else m.filter (fun x => decide (a.toNat < x.1.toNat)) := by
  induction m with
  | nil => by_cases h : a.toNat < b.toNat <;> simp [mapInsert, h]
  | cons x m ih =>
    obtain ⟨k, e⟩ := x
    have hm' := List.pairwise_cons.mp hm
    have ih := ih hm'.2
    by_cases hbk : b = k
    · subst hbk
      by_cases h : a.toNat < b.toNat
      · simp [mapInsert, h]
      · simp [mapInsert, h]
    · by_cases hlt : b.toNat < k.toNat
      · simp only [mapInsert, hbk, if_false, hlt, if_true]
        by_cases h : a.toNat < b.toNat
        · have hk : a.toNat < k.toNat := by omega
          simp [h, hk, mapInsert, hbk, hlt]
        · simp [h]
      · simp only [mapInsert, hbk, if_false, hlt]
        rw [List.filter_cons, ih]
        by_cases hk : a.toNat < k.toNat
        · have h : a.toNat < b.toNat := by omega
          simp [h, hk, mapInsert, hbk, hlt]
        · by_cases h : a.toNat < b.toNat <;> simp [h, hk]

theorem filter_behind {pre post : List (Mac48 × DevId)} {a : Mac48} {y : DevId} (hm : SortedKeys (pre ++ (a, y) :: post)) :
    (pre ++ (a, y) :: post).filter (fun x => decide (a.toNat < x.1.toNat)) = post := by
  obtain ⟨_, h2, h3⟩ := List.pairwise_append.mp hm
  rw [List.filter_append, List.filter_eq_nil_iff.mpr, List.nil_append, List.filter_cons_of_neg (by simp)]
  · rw [List.filter_eq_self]
    intro x hx
    simpa using (List.pairwise_cons.mp h2).1 x hx
  · intro x hx
    have := h3 x hx (a, y) (by simp)
    simp only at this
    simp only [decide_eq_true_eq]
    omega

theorem restAfter_eq {pre post now : List (Mac48 × DevId)} {a : Mac48} {y : DevId} (hm : SortedKeys (pre ++ (a, y) :: post)) :
    restAfter (pre ++ (a, y) :: post) now post a = now.filter (fun x => decide (a.toNat < x.1.toNat)) := by
  unfold restAfter
  split
  · rename_i h
    rw [h, filter_behind hm]
  · rfl

theorem mapInsert_perm {b : Mac48} {z : DevId} {m : List (Mac48 × DevId)} (h : ∀ x ∈ m, x.1 ≠ b) :
    (mapInsert b z m).Perm ((b, z) :: m) := by
  induction m with
  | nil => exact List.Perm.refl _
  | cons x m ih =>
    obtain ⟨k, e⟩ := x
    have hne : b ≠ k := fun hh => h (k, e) (by simp) hh.symm
    unfold mapInsert
    rw [if_neg hne]
    split
    · exact List.Perm.refl _
    · exact (List.Perm.cons _ (ih fun x hx => h x (by simp [hx]))).trans (List.Perm.swap _ _ _)

/-- The device as the destination side requires. -/
def sideOf (g : Bool) : Side := if g then .sat else .gnd

theorem attach_leo {s : Sys} {z : DevId} {c : ChanId} {g : Bool} (hk : (s.chan c).kind = .leo) (hl : (s.dev z).leo = true)
    (hside : (s.dev z).side = sideOf g) :
    ∃ s', attach s z c = .ok s' ∧ (s'.chan c).dests g = mapInsert (s.dev z).addr z ((s.chan c).dests g) ∧ s'.now = s.now ∧
      (∀ x, (s'.dev x).node = (s.dev x).node ∧ (s'.dev x).txPower = (s.dev x).txPower) ∧
      ∃ l, s'.log = s.log ++ l ∧ receivers l = [] := by
  unfold attach
  simp only [hk, hl, Bool.not_true, Bool.false_eq_true, if_false, hside]
  cases g
  · refine ⟨_, rfl, by simp [Sys.emit, Sys.setDev, Sys.setChan, Chan.dests], rfl, ?_, ?_⟩
    · intro x
      by_cases hx : x = z
      · subst hx; simp [Sys.emit, Sys.setDev, Sys.setChan]
      · simp [Sys.emit, Sys.setDev, Sys.setChan, hx]
    · exact ⟨[(s.now, .linkChange z), (s.now, .attachRet z c (s.chan c).link.length)], by simp [Sys.emit, Sys.setDev, Sys.setChan], rfl⟩
  · refine ⟨_, rfl, by simp [Sys.emit, Sys.setDev, Sys.setChan, Chan.dests], rfl, ?_, ?_⟩
    · intro x
      by_cases hx : x = z
      · subst hx; simp [Sys.emit, Sys.setDev, Sys.setChan]
      · simp [Sys.emit, Sys.setDev, Sys.setChan, hx]
    · exact ⟨[(s.now, .linkChange z), (s.now, .attachRet z c (s.chan c).link.length)], by simp [Sys.emit, Sys.setDev, Sys.setChan], rfl⟩

theorem receivers_append_traced (l1 l2 : List (Time × Ev)) : receivers (l1 ++ l2) = receivers l1 ++ receivers l2 := by
  simp [receivers, proj]

theorem receivers_entries_traced (now : Time) (c : ChanId) (f : Bytes) (src : DevId) (t : Time) (rs : List Recv) :
    receivers (rs.map (Recv.entry now c f src t)) = rs.map Recv.dst := by
  induction rs with
  | nil => rfl
  | cons r rs ih => simpa [receivers, proj, Recv.entry] using ih

theorem recv_dst_map {E : Env} {s : Sys} {c : ChanId} {src : DevId} {t : Time} (ds : List DevId) :
    (ds.filterMap (recvOf E s c src t)).map Recv.dst = ds.filter (fun x => (recvOf E s c src t x).isSome) := by
  induction ds with
  | nil => rfl
  | cons d ds ih =>
    rw [List.filterMap_cons]
    cases hr : recvOf E s c src t d with
    | none => simp only [hr]; rw [List.filter_cons_of_neg (by simp [hr])]; exact ih
    | some r =>
      simp only [hr]
      rw [List.filter_cons_of_pos (by simp [hr]), List.map_cons, ih, recvOf_dst hr]

/-- `deliverAll` as a list of receivers. -/
theorem deliverAll_log {E : Env} {c : ChanId} {f : Bytes} {src : DevId} {t : Time} {ds : List DevId} {s s' : Sys} {r b : Bool}
    (h : deliverAll E c f src t ds s r = .ok (s', b)) :
    ∃ l, s'.log = s.log ++ l ∧ receivers l = ds.filter (fun x => (recvOf E s c src t x).isSome) := by
  obtain ⟨rfl, _⟩ := deliverAll_ok h
  exact ⟨_, rfl, by rw [receivers_entries_traced, recv_dst_map]⟩

theorem leoLoopK_attach {E : Env} {k : Sinks} {c : ChanId} {g : Bool} {f : Bytes} {src : DevId} {t : Time}
    {pre post : List (Mac48 × DevId)} {a : Mac48} {y z : DevId} {n : Nat} {s s' : Sys} {r b : Bool}
    (hk : ∀ j, j ≠ pre.length → ∀ a s, k (.txrxAt c a j) s = .ok s)
    (hat : ∀ u, k (.txrxAt c a pre.length) u = attach u z c)
    (hd : (s.chan c).dests g = pre ++ (a, y) :: post) (hso : SortedKeys ((s.chan c).dests g))
    (hkind : (s.chan c).kind = .leo) (hl : (s.dev z).leo = true) (hside : (s.dev z).side = sideOf g)
    (hy : (recvOf E s c src t y).isSome = true) (hn : post.length < n)
    (h : leoLoopK E k c g f src t (n + 1 + pre.length) 0 (pre ++ (a, y) :: post) s r = .ok (s', b)) :
    ∃ l, s'.log = s.log ++ l ∧ receivers l =
      ((pre ++ [(a, y)] ++ (if a.toNat < (s.dev z).addr.toNat then mapInsert (s.dev z).addr z post else post)).map
        (·.2)).filter (fun x => (recvOf E s c src t x).isSome) := by
  have hso' := hso
  rw [hd] at hso'
  rw [leoLoopK_before hk pre (n + 1) 0 _ s r (by omega), Outcome.bind_eq_ok] at h
  obtain ⟨⟨s1, r1⟩, h1, h2⟩ := h
  obtain ⟨l1, hl1, hr1⟩ := deliverAll_log h1
  obtain ⟨e1, _⟩ := deliverAll_ok h1
  rw [leoLoopK, deliverK] at h2
  simp only [Outcome.bind_eq_ok] at h2
  obtain ⟨⟨s4, b4⟩, ⟨⟨s2, b2⟩, h3, h4⟩, h5⟩ := h2
  obtain ⟨e2, hb2⟩ := deliver_ok h3
  have hrec : ∀ x, recvOf E s1 c src t x = recvOf E s c src t x := by intro x; rw [e1, recvOf_addRecvs]
  rw [hrec] at e2 hb2
  rw [hy] at hb2
  subst hb2
  simp only [if_true, Outcome.bind_eq_ok] at h4
  obtain ⟨s3, h6, h7⟩ := h4
  injection h7 with h7
  injection h7 with h7 h8
  subst h7 h8
  rw [hat] at h6
  have hdev2 : s2.dev = s.dev := by rw [e2, e1]; rfl
  have hchan2 : s2.chan = s.chan := by rw [e2, e1]; rfl
  have hchan1 : s1.chan = s.chan := by rw [e1]; rfl
  have hnow2 : s2.now = s.now := by rw [e2, e1]; rfl
  obtain ⟨s3', h6', hd3, hnow3, hdev3, l3, hl3, hr3⟩ :=
    attach_leo (s := s2) (z := z) (c := c) (g := g) (by rw [hchan2]; exact hkind) (by rw [hdev2]; exact hl) (by rw [hdev2]; exact hside)
  rw [h6] at h6'
  injection h6' with h6'
  subst h6'
  rw [hchan1, hd, restAfter_eq hso', hd3, hchan2, hdev2, filter_mapInsert hso, hd, filter_behind hso',
    leoLoopK_congr (k' := fun _ t => .ok t) n _ _ _ _ (fun j hj a => funext fun u => hk j (by omega) a u),
    leoLoopK_plain quietChan_plain _ _ _ _ _ ?_] at h5
  · obtain ⟨l5, hl5, hr5⟩ := deliverAll_log h5
    have hrec3 : ∀ x, recvOf E s3 c src t x = recvOf E s c src t x := fun x =>
      recvOf_same (hnow3.trans hnow2) ((hdev3 src).1.trans (by rw [hdev2])) ((hdev3 src).2.trans (by rw [hdev2]))
        ((hdev3 x).1.trans (by rw [hdev2]))
    have hl2 : s2.log = s1.log ++ (recvOf E s c src t y).toList.map (Recv.entry s1.now c f src t) := by rw [e2]; rfl
    refine ⟨l1 ++ ((recvOf E s c src t y).toList.map (Recv.entry s1.now c f src t) ++ (l3 ++ l5)), ?_, ?_⟩
    · rw [hl5, hl3, hl2, hl1]; simp
    · rw [receivers_append_traced, receivers_append_traced, receivers_append_traced, receivers_entries_traced, hr1, hr3, hr5]
      have hone : (recvOf E s c src t y).toList.map Recv.dst = [y].filter (fun x => (recvOf E s c src t x).isSome) := by
        rw [← recv_dst_map]
        cases hr : recvOf E s c src t y with
        | none => rw [hr] at hy; cases hy
        | some q => simp [hr]
      rw [hone]
      simp only [hrec3, List.map_append, List.filter_append, List.map_cons, List.map_nil, List.nil_append, List.append_assoc]
  · have hlen : ∀ m : List (Mac48 × DevId), (mapInsert (s.dev z).addr z m).length ≤ m.length + 1 := by
      intro m
      induction m with
      | nil => simp [mapInsert]
      | cons x m ih =>
        obtain ⟨k, e⟩ := x
        unfold mapInsert
        split
        · simp
        · split <;> simp_all
    have := hlen post
    split <;> omega

theorem islLoopK_attach {E : Env} {k : Sinks} {c : ChanId} {f : Bytes} {src : DevId} {slot : Nat} {t : Time} {i0 : Nat} {n : Nat}
    {y z : DevId} {s s' : Sys} (hk : ∀ j, j ≠ i0 → ∀ s, k (.txrx j) s = .ok s) (hat : ∀ u, k (.txrx i0) u = attach u z c)
    (hkind : (s.chan c).kind = .isl) (hi0 : (s.chan c).link[i0]? = some y) (his : i0 ≠ slot) (hslot : slot < (s.chan c).link.length)
    (hy : (recvOf E s c src t y).isSome = true) (hn : (s.chan c).link.length ≤ n + i0)
    (h : islLoopK E k c f src slot t (n + 1 + i0) 0 s = .ok s') :
    ∃ l, s'.log = s.log ++ l ∧ receivers l =
      (((s.chan c).link.eraseIdx slot) ++ [z]).filter (fun x => (recvOf E s c src t x).isSome) := by
  have hlt := (List.getElem?_eq_some_iff.mp hi0).1
  have hget := (List.getElem?_eq_some_iff.mp hi0).2
  have others : ∀ {ds : List DevId} {i : Nat} {s s' : Sys}, deliverOthers E c f src slot t ds i s = .ok s' →
      ∃ l, s'.log = s.log ++ l ∧ receivers l = (((ds.zipIdx i).filter (fun x => x.2 ≠ slot)).map Prod.fst).filter
        (fun x => (recvOf E s c src t x).isSome) := by
    intro ds i s s' h
    have := deliverOthers_ok h
    subst this
    refine ⟨_, rfl, ?_⟩
    rw [receivers_entries_traced, ← recv_dst_map, List.filterMap_map]
    rfl
  rw [islLoopK_before hk i0 (n + 1) 0 s (by omega) (by omega), Outcome.bind_eq_ok] at h
  obtain ⟨s1, h1, h2⟩ := h
  obtain ⟨l1, hl1, hr1⟩ := others h1
  have e1 := deliverOthers_ok h1
  have hrec : ∀ x, recvOf E s1 c src t x = recvOf E s c src t x := by intro x; rw [e1, recvOf_addRecvs]
  have hchan1 : s1.chan = s.chan := by rw [e1]; rfl
  rw [islLoopK, hchan1, hi0] at h2
  simp only at h2
  rw [if_neg his, deliverK] at h2
  simp only [Outcome.bind_eq_ok] at h2
  obtain ⟨⟨s4, b4⟩, ⟨⟨s2, b2⟩, h3, h4⟩, h5⟩ := h2
  obtain ⟨e2, hb2⟩ := deliver_ok h3
  rw [hrec] at e2 hb2
  rw [hy] at hb2
  subst hb2
  simp only [if_true, Outcome.bind_eq_ok] at h4
  obtain ⟨s3, h6, h7⟩ := h4
  injection h7 with h7
  injection h7 with h7 h8
  subst h7 h8
  rw [hat] at h6
  have hdev2 : s2.dev = s.dev := by rw [e2, e1]; rfl
  have hchan2 : s2.chan = s.chan := by rw [e2, e1]; rfl
  have hnow2 : s2.now = s.now := by rw [e2, e1]; rfl
  obtain ⟨s3', h6', hd3, hnow3, hdev3, l3, hl3, hr3⟩ := attach_isl (s := s2) (z := z) (c := c) (by rw [hchan2]; exact hkind)
  rw [h6] at h6'
  injection h6' with h6'
  subst h6'
  rw [islLoopK_congr (k' := fun _ t => .ok t) n _ _ (fun j hj => funext fun u => hk j (by omega) u),
    islLoopK_plain quietChan_plain _ _ _ (by rw [hd3, hchan2]; simp only [List.length_append, List.length_singleton]; omega),
    hd3, hchan2] at h5
  simp only at h5
  obtain ⟨l5, hl5, hr5⟩ := others h5
  have hrec3 : ∀ x, recvOf E s3 c src t x = recvOf E s c src t x := fun x =>
    recvOf_same (hnow3.trans hnow2) ((hdev3 src).1.trans (by rw [hdev2])) ((hdev3 src).2.1.trans (by rw [hdev2]))
      ((hdev3 x).1.trans (by rw [hdev2]))
  have hl2 : s2.log = s1.log ++ (recvOf E s c src t y).toList.map (Recv.entry s1.now c f src t) := by rw [e2]; rfl
  refine ⟨l1 ++ ((recvOf E s c src t y).toList.map (Recv.entry s1.now c f src t) ++ (l3 ++ l5)), ?_, ?_⟩
  · rw [hl5, hl3, hl2, hl1]; simp
  · rw [receivers_append_traced, receivers_append_traced, receivers_append_traced, receivers_entries_traced, hr1, hr3, hr5]
    have hone : (recvOf E s c src t y).toList.map Recv.dst = [y].filter (fun x => (recvOf E s c src t x).isSome) := by
      rw [← recv_dst_map]
      cases hr : recvOf E s c src t y with
      | none => rw [hr] at hy; cases hy
      | some q => simp [hr]
    rw [hone]
    simp only [hrec3, List.nil_append]
    rw [← List.filter_append, ← List.filter_append]
    congr 1
    have hsplit : ((s.chan c).link ++ [z]).zipIdx 0 =
        ((((s.chan c).link.drop 0).take i0).zipIdx 0) ++ ((y, i0) :: (((s.chan c).link ++ [z]).drop (i0 + 1)).zipIdx (i0 + 1)) := by
      have hL : (s.chan c).link ++ [z] = ((s.chan c).link.take i0) ++ (y :: (((s.chan c).link ++ [z]).drop (i0 + 1))) := by
        have h' : ((s.chan c).link ++ [z]).take i0 = (s.chan c).link.take i0 := List.take_append_of_le_length (by omega)
        rw [← h']
        have hg : ((s.chan c).link ++ [z])[i0]'(by simp; omega) = y := by
          rw [List.getElem_append_left hlt]; exact hget
        rw [← hg, List.getElem_cons_drop]
        exact (List.take_append_drop _ _).symm
      conv_lhs => rw [hL]
      rw [List.zipIdx_append, List.zipIdx_cons, List.drop_zero]
      simp only [List.length_take, Nat.zero_add, Nat.min_eq_left (Nat.le_of_lt hlt)]
    have herase : (s.chan c).link.eraseIdx slot ++ [z] = ((s.chan c).link ++ [z]).eraseIdx slot := by
      rw [List.eraseIdx_append_of_lt_length hslot]
    rw [herase, ← zipIdx_filter_ne (i := 0), Nat.zero_add, hsplit, List.filter_append, List.map_append,
      List.filter_cons_of_pos (by simpa using his), List.map_cons]
    rfl

end Verif
