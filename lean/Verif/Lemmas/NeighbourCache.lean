import Verif.Spec.Helper
import Verif.Lemmas.HelperConf
import Mathlib.Data.List.Nodup
/-! # Lemmas on neighbour caches -/

namespace Verif
open Spec

theorem answer_put (ip : Ip) (m : Mac48) (k : Cache) (x : Ip) :
    answer (Cache.put ip m k) x = if x = ip then some m else answer k x := by
  induction k with
  | nil =>
    unfold answer Cache.put
    by_cases h : x = ip
    · simp [h]
    · have h' : ¬ ip = x := fun e => h e.symm
      simp [h, h']
  | cons p k ih =>
    obtain ⟨i, y⟩ := p
    unfold Cache.put
    by_cases hi : i = ip
    · subst hi
      by_cases h : x = i
      · simp [answer, h]
      · have h' : ¬ i = x := fun e => h e.symm
        simp [answer, h, h']
    · rw [if_neg hi]
      by_cases h : i = x
      · subst h
        simp [answer, hi]
      · have e1 : ∀ r : Cache, answer ((i, y) :: r) x = answer r x := by
          intro r
          simp [answer, h]
        rw [e1, e1, ih]

theorem sameType_iff (b : Build) (d e : DevId) : sameType b d e = true ↔ ¬ Peers (b.sys.dev d) (b.sys.dev e) := by
  simp [sameType, Peers, and_assoc]

/-- The entries written for position `i`. -/
def Writes (b : Build) (ips : List Ip) (i : Nat) (d : DevId) (ip : Ip) (x : DevId × Nat) : Prop :=
  x.2 ≠ i ∧ Peers (b.sys.dev d) (b.sys.dev x.1) ∧ ips[b.ifIndex x.1]? = some ip

instance (b : Build) (ips : List Ip) (i : Nat) (d : DevId) (ip : Ip) (x : DevId × Nat) :
    Decidable (Writes b ips i d ip x) := by unfold Writes; infer_instance

theorem fillOne_spec {b : Build} {ips : List Ip} {i : Nat} {d : DevId} {es : List DevId} {j : Nat} {k k' : Cache}
    (h : fillOne b ips i d es j k = .ok k') (ip : Ip) :
    answer k' ip = (((es.zipIdx j).filter (fun x => Writes b ips i d ip x)).getLast?.map
      (fun x => (b.sys.dev x.1).addr)).or (answer k ip) := by
  induction es generalizing j k with
  | nil => injection h with h; simp [h]
  | cons e es ih =>
    unfold fillOne at h
    rw [List.zipIdx_cons]
    split at h
    · rename_i hc
      have hn : ¬ Writes b ips i d ip (e, j) := by
        rintro ⟨h1, h2, _⟩
        rcases (Bool.or_eq_true _ _).mp hc with hc | hc
        · exact h1 (of_decide_eq_true hc).symm
        · exact (sameType_iff b d e).mp hc h2
      rw [List.filter_cons, if_neg (by simpa using hn)]
      exact ih h
    · rename_i hc
      have hc' := fun hh => hc ((Bool.or_eq_true _ _).mpr hh)
      have hne : j ≠ i := fun e => hc' (Or.inl (decide_eq_true e.symm))
      have hpe : Peers (b.sys.dev d) (b.sys.dev e) := by
        apply Classical.byContradiction
        intro hp
        exact hc' (Or.inr ((sameType_iff b d e).mpr hp))
      split at h
      · cases h
      · rename_i ip' hip
        rw [ih h, answer_put]
        by_cases hw : ip = ip'
        · subst hw
          have : Writes b ips i d ip (e, j) := ⟨hne, hpe, hip⟩
          rw [if_pos rfl, List.filter_cons, if_pos (by simpa using this)]
          rcases List.eq_nil_or_concat ((es.zipIdx (j + 1)).filter (fun x => Writes b ips i d ip x)) with h0 | ⟨l, z, hz⟩
          · rw [h0]; simp
          · rw [hz, List.concat_eq_append]
            simp [List.getLast?_cons, List.getLast?_append]
        · have : ¬ Writes b ips i d ip (e, j) := by
            rintro ⟨_, _, h3⟩
            rw [hip] at h3
            injection h3 with h3
            exact hw h3.symm
          rw [if_neg hw, List.filter_cons, if_neg (by simpa using this)]

theorem fillOne_total {b : Build} {ips : List Ip} {i : Nat} {d : DevId} {es : List DevId} {j : Nat} {k : Cache} :
    (∃ k', fillOne b ips i d es j k = .ok k') ↔
      ∀ x ∈ es.zipIdx j, x.2 ≠ i → Peers (b.sys.dev d) (b.sys.dev x.1) → b.ifIndex x.1 < ips.length := by
  induction es generalizing j k with
  | nil => simp [fillOne]
  | cons e es ih =>
    unfold fillOne
    rw [List.zipIdx_cons]
    simp only [List.mem_cons, forall_eq_or_imp]
    split
    · rename_i hc
      rw [ih]
      constructor
      · intro h
        refine ⟨?_, h⟩
        intro h1 h2
        rcases (Bool.or_eq_true _ _).mp hc with hc | hc
        · exact absurd (of_decide_eq_true hc).symm h1
        · exact absurd h2 ((sameType_iff b d e).mp hc)
      · exact fun h => h.2
    · rename_i hc
      have hc' := fun hh => hc ((Bool.or_eq_true _ _).mpr hh)
      have hne : j ≠ i := fun e => hc' (Or.inl (decide_eq_true e.symm))
      have hpe : Peers (b.sys.dev d) (b.sys.dev e) := by
        apply Classical.byContradiction
        intro hp
        exact hc' (Or.inr ((sameType_iff b d e).mpr hp))
      split
      · rename_i hip
        have : ips.length ≤ b.ifIndex e := by simpa using hip
        constructor
        · rintro ⟨k', h⟩; cases h
        · intro h; have := h.1 hne hpe; omega
      · rename_i ip hip
        rw [ih]
        have : b.ifIndex e < ips.length := (List.getElem?_eq_some_iff.mp hip).1
        exact ⟨fun h => ⟨fun _ _ => this, h⟩, fun h => h.2⟩

theorem fillOne_fail {b : Build} {ips : List Ip} {i : Nat} {d : DevId} {es : List DevId} {j : Nat} {k : Cache} {f : Fault}
    (h : fillOne b ips i d es j k = .fail f) : f = .indexOutOfRange := by
  induction es generalizing j k with
  | nil => cases h
  | cons e es ih =>
    unfold fillOne at h
    split at h
    · exact ih h
    · split at h
      · injection h with h; exact h.symm
      · exact ih h

theorem fillAll_spec {b : Build} {ips : List Ip} {all ds : List DevId} {i : Nat} {ca ca' : DevId → Cache}
    (h : fillAll b ips all ds i ca = .ok ca') (hd : ds.Nodup) :
    (∀ (t : Nat) (d : DevId), ds[t]? = some d → fillOne b ips (i + t) d all 0 (ca d) = .ok (ca' d)) ∧
    ∀ d, d ∉ ds → ca' d = ca d := by
  induction ds generalizing i ca with
  | nil => injection h with h; subst h; simp
  | cons e ds ih =>
    obtain ⟨k, h1, h2⟩ := Outcome.bind_eq_ok.mp h
    obtain ⟨hd1, hd2⟩ := List.nodup_cons.mp hd
    obtain ⟨h3, h4⟩ := ih h2 hd2
    constructor
    · intro t d ht
      cases t with
      | zero =>
        simp only [List.getElem?_cons_zero, Option.some.injEq] at ht
        subst ht
        rw [h4 _ hd1, if_pos rfl]
        exact h1
      | succ t =>
        have ht' : ds[t]? = some d := by simpa using ht
        have hne : d ≠ e := by rintro rfl; exact hd1 (List.mem_of_getElem? ht')
        have := h3 t d ht'
        rw [if_neg hne] at this
        rw [← this]
        congr 1; omega
    · intro d hdn
      have hne : d ≠ e := by rintro rfl; exact hdn (by simp)
      rw [h4 d (fun h => hdn (by simp [h])), if_neg hne]

theorem fillAll_total {b : Build} {ips : List Ip} {all ds : List DevId} {i : Nat} {ca : DevId → Cache}
    (h : ∀ e ∈ all, b.ifIndex e < ips.length) : ∃ ca', fillAll b ips all ds i ca = .ok ca' := by
  induction ds generalizing i ca with
  | nil => exact ⟨ca, rfl⟩
  | cons e ds ih =>
    obtain ⟨k, hk⟩ := (fillOne_total (b := b) (ips := ips) (i := i) (d := e) (es := all) (j := 0) (k := ca e)).mpr
      (fun x hx _ _ => h x.1 (by
        exact List.fst_mem_of_mem_zipIdx hx))
    obtain ⟨ca', hc⟩ := ih (i := i + 1) (ca := fun x => if x = e then k else ca x)
    exact ⟨ca', by simp only [fillAll, hk, Outcome.ok_bind, hc]⟩

end Verif
