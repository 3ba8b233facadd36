import Verif.Model.Net
import Verif.Spec.Net
/-! Helper lemmas about the network model: effects of the channel and of each operation. -/

namespace Verif
open Spec

/-! ## The pending event list -/

theorem mem_insertPending {p q : Pending} {l : List Pending} :
    q ∈ insertPending p l ↔ q = p ∨ q ∈ l := by
  induction l with
  | nil => simp [insertPending]
  | cons a l ih =>
    simp only [insertPending]
    split
    · simp
    · simp only [List.mem_cons, ih]
      constructor
      · rintro (h | h | h) <;> simp [h]
      · rintro (h | h | h) <;> simp [h]

/-- Time-sortedness of the event list. -/
def SortedP (l : List Pending) : Prop := l.Pairwise (fun a b => a.time ≤ b.time)

theorem sorted_insertPending {p : Pending} {l : List Pending} (h : SortedP l) :
    SortedP (insertPending p l) := by
  induction l with
  | nil => simp [insertPending, SortedP]
  | cons a l ih =>
    have h' := List.pairwise_cons.mp h
    simp only [insertPending]
    split
    · rename_i hlt
      refine List.pairwise_cons.mpr ⟨?_, h⟩
      intro b hb
      rcases List.mem_cons.mp hb with rfl | hb
      · omega
      · have := h'.1 b hb; omega
    · rename_i hge
      refine List.pairwise_cons.mpr ⟨?_, ih h'.2⟩
      intro b hb
      rcases mem_insertPending.mp hb with rfl | hb
      · omega
      · exact h'.1 b hb

theorem filterMap_insertPending_none {α : Type} {g : Pending → Option α} {p : Pending} (h : g p = none)
    (l : List Pending) : (insertPending p l).filterMap g = l.filterMap g := by
  induction l with
  | nil => simp [insertPending, h]
  | cons a l ih =>
    simp only [insertPending]
    split
    · simp [h]
    · simp [List.filterMap_cons, ih]

/-- Insertion of an event that is not earlier than any selected one appends it to the selection. -/
theorem filterMap_insertPending_some {α : Type} {g : Pending → Option α} {p : Pending} {x : α}
    (h : g p = some x) (l : List Pending) (hl : ∀ q ∈ l, (g q).isSome → q.time ≤ p.time)
    (hs : SortedP l) : (insertPending p l).filterMap g = l.filterMap g ++ [x] := by
  induction l with
  | nil => simp [insertPending, h]
  | cons a l ih =>
    have hs' := List.pairwise_cons.mp hs
    simp only [insertPending]
    split
    · rename_i hlt
      have ha : g a = none := by
        by_cases hh : (g a).isSome
        · have := hl a (by simp) hh; omega
        · simpa using hh
      have hrest : l.filterMap g = [] := by
        rw [List.filterMap_eq_nil_iff]
        intro b hb
        by_cases hh : (g b).isSome
        · have h1 := hl b (by simp [hb]) hh
          have h2 := hs'.1 b hb
          omega
        · simpa using hh
      simp [h, ha, hrest]
    · have := ih (fun q hq => hl q (by simp [hq])) hs'.2
      simp only [List.filterMap_cons, this]
      cases g a <;> simp

/-- Insert several events in turn. -/
def insertAll (ps : List Pending) (l : List Pending) : List Pending :=
  ps.foldl (fun acc p => insertPending p acc) l

@[simp] theorem insertAll_nil (l : List Pending) : insertAll [] l = l := rfl
@[simp] theorem insertAll_cons (p : Pending) (ps l : List Pending) :
    insertAll (p :: ps) l = insertAll ps (insertPending p l) := rfl

theorem mem_insertAll {ps l : List Pending} {q : Pending} :
    q ∈ insertAll ps l ↔ q ∈ ps ∨ q ∈ l := by
  induction ps generalizing l with
  | nil => simp
  | cons p ps ih =>
    rw [insertAll_cons, ih, mem_insertPending]
    simp only [List.mem_cons]
    constructor
    · rintro (h | h | h) <;> simp [h]
    · rintro ((h | h) | h) <;> simp [h]

theorem sorted_insertAll {ps l : List Pending} (h : SortedP l) : SortedP (insertAll ps l) := by
  induction ps generalizing l with
  | nil => exact h
  | cons p ps ih => exact ih (sorted_insertPending h)

theorem filterMap_insertAll_none {α : Type} {g : Pending → Option α} {ps : List Pending}
    (h : ∀ p ∈ ps, g p = none) (l : List Pending) :
    (insertAll ps l).filterMap g = l.filterMap g := by
  induction ps generalizing l with
  | nil => rfl
  | cons p ps ih =>
    rw [insertAll_cons, ih (fun q hq => h q (by simp [hq])),
      filterMap_insertPending_none (h p (by simp))]

/-! ## Channel effects -/

/-- A reception to be scheduled: receiver, delay, power. -/
structure Recv where
  dst : DevId
  delay : Time
  power : Power

/-- The pending event of a reception. -/
def Recv.pend (now : Time) (f : Bytes) (src : DevId) (r : Recv) : Pending :=
  ⟨now + r.delay, .receive r.dst f src r.power⟩

/-- The log entry of a reception. -/
def Recv.entry (now : Time) (c : ChanId) (f : Bytes) (src : DevId) (txTime : Time) (r : Recv) : Time × Ev :=
  (now, .txrx c f src r.dst txTime r.delay)

/-- A state with receptions added. -/
def addRecvs (s : Sys) (c : ChanId) (f : Bytes) (src : DevId) (txTime : Time) (rs : List Recv) : Sys :=
  { s with
    pending := insertAll (rs.map (Recv.pend s.now f src)) s.pending
    log := s.log ++ rs.map (Recv.entry s.now c f src txTime) }

@[simp] theorem addRecvs_nil (s : Sys) (c : ChanId) (f : Bytes) (src : DevId) (t : Time) :
    addRecvs s c f src t [] = s := by
  simp [addRecvs]

theorem addRecvs_append (s : Sys) (c : ChanId) (f : Bytes) (src : DevId) (t : Time) (r1 r2 : List Recv) :
    addRecvs (addRecvs s c f src t r1) c f src t r2 = addRecvs s c f src t (r1 ++ r2) := by
  simp [addRecvs, insertAll, List.foldl_append]

/-- The reception (if any) caused by `Deliver`, in terms of the specification `reach`. -/
def recvOf (E : Env) (s : Sys) (c : ChanId) (src : DevId) (txTime : Time) (dst : DevId) : Option Recv :=
  match (s.dev src).node, (s.dev dst).node with
  | some ns, some nd =>
    (reach E s.now c (s.dev src).txPower ns nd txTime).map fun x => ⟨dst, x.1, x.2⟩
  | _, _ => none

theorem deliver_eq (E : Env) (s : Sys) (c : ChanId) (f : Bytes) (src dst : DevId) (t : Time) :
    deliver E s c f src dst t =
      if (s.dev src).node.isSome ∧ (s.dev dst).node.isSome then
        .ok (addRecvs s c f src t (recvOf E s c src t dst).toList, (recvOf E s c src t dst).isSome)
      else .fail .nullNode := by
  unfold deliver recvOf
  cases hns : (s.dev src).node with
  | none => simp
  | some ns =>
    cases hnd : (s.dev dst).node with
    | none => simp
    | some nd =>
      simp only [Option.isSome_some, and_self, if_true]
      unfold reach
      cases h1 : E.hasMob ns <;> cases h2 : E.hasMob nd <;>
        simp only [Bool.and_self, Bool.and_false, Bool.and_true, Bool.false_eq_true, if_false, if_true]
      · simp [addRecvs, Sys.schedule, Sys.emit, Recv.pend, Recv.entry]
      · simp [addRecvs, Sys.schedule, Sys.emit, Recv.pend, Recv.entry]
      · simp [addRecvs, Sys.schedule, Sys.emit, Recv.pend, Recv.entry]
      · cases hl : E.loss c with
        | none =>
          cases hd : E.delay c <;>
            simp [addRecvs, Sys.schedule, Sys.emit, Recv.pend, Recv.entry]
        | some l =>
          by_cases hlt : l (s.dev src).txPower ns nd s.now < -900
          · have : ¬ (-900 ≤ l (s.dev src).txPower ns nd s.now) := Rat.not_le.mpr hlt
            simp [hlt, this]
          · have : (-900 ≤ l (s.dev src).txPower ns nd s.now) := Rat.not_lt.mp hlt
            cases hd : E.delay c <;>
              simp [hlt, this, addRecvs, Sys.schedule, Sys.emit, Recv.pend, Recv.entry]

theorem recvOf_dst {E : Env} {s : Sys} {c : ChanId} {src : DevId} {t : Time} {dst : DevId} {r : Recv}
    (h : recvOf E s c src t dst = some r) : r.dst = dst := by
  unfold recvOf at h
  split at h
  · rw [Option.map_eq_some_iff] at h
    obtain ⟨x, _, rfl⟩ := h
    rfl
  · cases h

theorem recvOf_addRecvs (E : Env) (s : Sys) (c : ChanId) (src : DevId) (t : Time) (dst : DevId)
    (c' : ChanId) (f : Bytes) (src' : DevId) (t' : Time) (rs : List Recv) :
    recvOf E (addRecvs s c' f src' t' rs) c src t dst = recvOf E s c src t dst := rfl

theorem deliver_ok {E : Env} {s s' : Sys} {c : ChanId} {f : Bytes} {src dst : DevId} {t : Time} {b : Bool}
    (h : deliver E s c f src dst t = .ok (s', b)) :
    s' = addRecvs s c f src t (recvOf E s c src t dst).toList ∧ b = (recvOf E s c src t dst).isSome := by
  rw [deliver_eq] at h
  split at h
  · injection h with h; injection h with h1 h2; exact ⟨h1.symm, h2.symm⟩
  · cases h

theorem deliverAll_ok {E : Env} {c : ChanId} {f : Bytes} {src : DevId} {t : Time} {ds : List DevId}
    {s s' : Sys} {r b : Bool} (h : deliverAll E c f src t ds s r = .ok (s', b)) :
    s' = addRecvs s c f src t (ds.filterMap (recvOf E s c src t)) ∧
      b = (r || (ds.filterMap (recvOf E s c src t)).length != 0) := by
  induction ds generalizing s r with
  | nil =>
    simp only [deliverAll] at h
    injection h with h; injection h with h1 h2
    simp [h1, h2]
  | cons d ds ih =>
    simp only [deliverAll] at h
    rw [Outcome.bind_eq_ok] at h
    obtain ⟨⟨s1, ok⟩, h1, h2⟩ := h
    obtain ⟨rfl, rfl⟩ := deliver_ok h1
    obtain ⟨h3, h4⟩ := ih h2
    change s' = addRecvs _ c f src t (List.filterMap (recvOf E s c src t) ds) at h3
    change b = (_ || (List.filterMap (recvOf E s c src t) ds).length != 0) at h4
    rw [addRecvs_append] at h3
    rw [List.filterMap_cons]
    cases hr : recvOf E s c src t d with
    | none => simp only [hr, Option.toList_none, List.nil_append] at h3 h4 ⊢; exact ⟨h3, by simpa using h4⟩
    | some x =>
      simp only [hr, Option.toList_some, List.singleton_append] at h3 h4 ⊢
      exact ⟨h3, by simpa using h4⟩

theorem deliverOthers_ok {E : Env} {c : ChanId} {f : Bytes} {src : DevId} {slot : Nat} {t : Time}
    {ds : List DevId} {i : Nat} {s s' : Sys} (h : deliverOthers E c f src slot t ds i s = .ok s') :
    s' = addRecvs s c f src t
      (((ds.zipIdx i).filter (fun x => x.2 ≠ slot)).filterMap (fun x => recvOf E s c src t x.1)) := by
  induction ds generalizing i s with
  | nil =>
    simp only [deliverOthers] at h
    injection h with h1
    simp [h1]
  | cons d ds ih =>
    simp only [deliverOthers] at h
    rw [List.zipIdx_cons]
    split at h
    · rename_i hi
      rw [List.filter_cons_of_neg (by simp [hi])]
      exact ih h
    · rename_i hi
      rw [Outcome.bind_eq_ok] at h
      obtain ⟨⟨s1, ok⟩, h1, h2⟩ := h
      obtain ⟨rfl, rfl⟩ := deliver_ok h1
      have h3 := ih h2
      simp only [recvOf_addRecvs] at h3
      rw [addRecvs_append] at h3
      rw [List.filter_cons_of_pos (by simp [hi]), List.filterMap_cons]
      cases hr : recvOf E s c src t d with
      | none => simpa [hr] using h3
      | some x => simpa [hr] using h3

theorem mapHas_iff (a : Mac48) (m : List (Mac48 × DevId)) : mapHas a m = true ↔ a ∈ m.map Prod.fst := by
  simp [mapHas, List.any_eq_true]

theorem isBroadcast_iff (m : Mac48) : m.isBroadcast = true ↔ m = Mac48.broadcast := by
  simp [Mac48.isBroadcast]

theorem findByAddr_eq (s : Sys) (a : Addr) (l : List DevId) :
    findByAddr s a l = l.find? (fun d => Addr.mac (s.dev d).addr = a) := by
  induction l with
  | nil => rfl
  | cons d l ih =>
    simp only [findByAddr, List.find?_cons]
    split <;> rename_i h
    · simp [h]
    · simp [h, ih]

theorem zipIdx_filter_ne {l : List DevId} {i slot : Nat} :
    ((l.zipIdx i).filter (fun x => x.2 ≠ i + slot)).map Prod.fst = l.eraseIdx slot := by
  induction l generalizing i slot with
  | nil => simp
  | cons d l ih =>
    rw [List.zipIdx_cons]
    cases slot with
    | zero =>
      rw [List.filter_cons_of_neg (by simp)]
      rw [List.eraseIdx_cons_zero]
      rw [List.filter_eq_self.mpr]
      · simp
      · intro x hx
        have := List.le_snd_of_mem_zipIdx hx
        simp; omega
    | succ k =>
      rw [List.filter_cons_of_pos (by simp), List.eraseIdx_cons_succ, List.map_cons]
      have := ih (i := i + 1) (slot := k)
      rw [show i + 1 + k = i + (k + 1) by omega] at this
      rw [this]

/-- Exact effect of a channel on behalf of a slot. -/
theorem chanTransmit_aud {E : Env} {s s' : Sys} {c : ChanId} {f : Bytes} {slot : Nat} {dest : Addr} {t : Time}
    {b : Bool} (h : chanTransmit E s c f slot dest t = .ok (s', b)) :
    ∃ src, ((audience s c slot dest = [] ∨ (s.chan c).link[slot]? = some src) ∧
        ∀ x, (s.chan c).link[slot]? = some x → src = x) ∧
      s' = addRecvs s c f src t ((audience s c slot dest).filterMap (recvOf E s c src t)) ∧
      (b = true ↔ (audience s c slot dest).filterMap (recvOf E s c src t) ≠ [] ∨ Floods s c slot dest) := by
  unfold chanTransmit at h
  have hne : ∀ l : List Recv, (l.length != 0) = true ↔ l ≠ [] := by intro l; cases l <;> simp
  split at h
  · rename_i hk
    have hnf : ¬ Floods s c slot dest := by rintro ⟨h1, _⟩; rw [hk] at h1; cases h1
    simp only [hnf, or_false]
    unfold leoTransmit at h
    unfold audience
    split at h
    · rename_i hl
      injection h with h; injection h with h1 h2
      subst h1
      exact ⟨0, ⟨by simp [hl], by simp [hl]⟩, by simp [hl], by simp [hl, ← h2]⟩
    · rename_i src hsrc
      refine ⟨src, ⟨Or.inr hsrc, by intro x hx; rw [hsrc] at hx; injection hx⟩, ?_⟩
      simp only at h
      simp only [hsrc, hk]
      split at h
      · cases h
      · split at h
        · rename_i hg
          obtain ⟨h1, h2⟩ := deliverAll_ok h
          rw [if_pos ((mapHas_iff _ _).mp hg)]
          exact ⟨h1, by rw [h2, ← hne]; simp⟩
        · rename_i hg
          rw [if_neg (fun hh => hg ((mapHas_iff _ _).mpr hh))]
          split at h
          · rename_i hs
            rw [if_pos ((mapHas_iff _ _).mp hs)]
            obtain ⟨h1, h2⟩ := deliverAll_ok h
            exact ⟨h1, by rw [h2, ← hne]; simp⟩
          · rename_i hs
            rw [if_neg (fun hh => hs ((mapHas_iff _ _).mpr hh))]
            injection h with h; injection h with h1 h2
            exact ⟨by simp [h1], by simp [← h2]⟩
  · rename_i hk
    unfold islTransmit at h
    unfold audience Floods
    split at h
    · rename_i hl
      injection h with h; injection h with h1 h2
      subst h1
      exact ⟨0, ⟨by simp [hl], by simp [hl]⟩, by simp [hl], by simp [hl, ← h2]⟩
    · rename_i src hsrc
      refine ⟨src, ⟨Or.inr hsrc, by intro x hx; rw [hsrc] at hx; injection hx⟩, ?_⟩
      rw [findByAddr_eq] at h
      simp only [hsrc, hk]
      split at h
      · rename_i dst hdst
        rw [hdst]
        obtain ⟨h1, h2⟩ := deliver_ok h
        rw [h1, h2]
        have hmem := List.mem_of_find?_eq_some hdst
        have hadr := List.find?_some hdst
        simp only [decide_eq_true_eq] at hadr
        simp only [List.filterMap_cons, List.filterMap_nil]
        refine ⟨by cases recvOf E s c src t dst <;> rfl, ?_⟩
        constructor
        · intro hs; left
          cases hr : recvOf E s c src t dst with
          | none => rw [hr] at hs; cases hs
          | some r => simp
        · rintro (hs | ⟨_, _, h3, h4⟩)
          · cases hr : recvOf E s c src t dst with
            | none => rw [hr] at hs; simp at hs
            | some r => rfl
          · rw [h3] at hadr; injection hadr with hadr
            exact absurd hadr (h4 dst hmem)
      · rename_i hnone
        rw [hnone]
        split at h
        · cases h
        · rename_i m
          rw [Bool.or_self] at h
          split at h
          · rename_i hbc
            rw [Outcome.bind_eq_ok] at h
            obtain ⟨s1, h1, h2⟩ := h
            injection h2 with h2; injection h2 with h2 h3
            subst h2
            have := deliverOthers_ok h1
            rw [this, if_pos (by rw [(isBroadcast_iff m).mp hbc])]
            refine ⟨?_, ?_⟩
            · congr 1
              rw [← zipIdx_filter_ne (i := 0) (slot := slot), List.filterMap_map]
              simp [Function.comp_def]
            · rw [← h3]
              refine iff_of_true rfl (Or.inr ⟨trivial, rfl, by rw [(isBroadcast_iff m).mp hbc], ?_⟩)
              intro d hd hadr
              have := List.find?_eq_none.mp hnone d hd
              simp only [decide_eq_true_eq] at this
              exact this (by rw [hadr, (isBroadcast_iff m).mp hbc])
          · rename_i hbc
            injection h with h; injection h with h1 h2
            have hm : ¬ Addr.mac m = Addr.mac Mac48.broadcast := by
              intro hh; injection hh with hh; exact hbc ((isBroadcast_iff m).mpr hh)
            rw [if_neg hm]
            simp [h1, ← h2, hm]

/-- Summary of what a channel can do on behalf of a slot. -/
theorem chanTransmit_ok {E : Env} {s s' : Sys} {c : ChanId} {f : Bytes} {slot : Nat} {dest : Addr} {t : Time}
    {b : Bool} (h : chanTransmit E s c f slot dest t = .ok (s', b)) :
    ∃ src rs, s' = addRecvs s c f src t rs ∧ (rs = [] ∨ (s.chan c).link[slot]? = some src) ∧
      (∀ r ∈ rs, recvOf E s c src t r.dst = some r) ∧
      rs = (audience s c slot dest).filterMap (recvOf E s c src t) ∧
      (b = true ↔ rs ≠ [] ∨ Floods s c slot dest) ∧ (∀ x, (s.chan c).link[slot]? = some x → src = x) := by
  obtain ⟨src, ⟨h1, h4⟩, h2, h3⟩ := chanTransmit_aud h
  refine ⟨src, _, h2, ?_, ?_, rfl, h3, h4⟩
  · rcases h1 with h1 | h1
    · left; simp [h1]
    · exact Or.inr h1
  · intro r hr
    obtain ⟨d, _, hd⟩ := List.mem_filterMap.mp hr
    rw [recvOf_dst hd]; exact hd

end Verif
