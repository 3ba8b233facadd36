import Verif.Spec.AddressPlan
/-!
# Assignment of IPv4 addresses
-/

namespace Verif

theorem addToIface_new {d : DevId} {ip : Ip} {l : List (DevId × List Ip)} (h : ∀ x, (d, x) ∉ l) : addToIface d ip l = l ++ [(d, [ip])] := by
  induction l with
  | nil => rfl
  | cons a l ih =>
    obtain ⟨e, x⟩ := a
    have he : e ≠ d := fun he => h x (by rw [he]; exact List.mem_cons_self)
    rw [addToIface, if_neg he, ih fun y hy => h y (List.mem_cons_of_mem _ hy)]
    rfl

/-- What `Assign` gives to fresh devices on distinct container positions. -/
def handedOut (node : DevId → Option NodeId) (net host : Nat) (ds : List DevId) (n : NodeId) : List (DevId × List Ip) :=
  ((ds.zipIdx host).filter fun x => node x.1 = some n).map fun x => (x.1, [net + x.2])

theorem assign_host {node : DevId → Option NodeId} {ds : List DevId} : ∀ {P Q : AddrPlan}, P.assign node ds = some Q →
    Q.net = P.net ∧ Q.bits = P.bits ∧ Q.host = P.host + ds.length ∧ (ds ≠ [] → Q.host ≤ 2 ^ P.bits - 2 + 1) := by
  induction ds with
  | nil => intro P Q h; injection h with h; subst h; exact ⟨rfl, rfl, rfl, fun h => absurd rfl h⟩
  | cons d ds ih =>
    intro P Q h
    rw [AddrPlan.assign, Option.bind_eq_some_iff] at h
    obtain ⟨R, h1, h2⟩ := h
    obtain ⟨i1, i2, i3, i4⟩ := ih h2
    unfold AddrPlan.assignOne at h1
    cases hn : node d with
    | none => rw [hn] at h1; cases h1
    | some n =>
      rw [hn] at h1
      simp only at h1
      split at h1
      · cases h1
      · rename_i hle
        split at h1
        · cases h1
        · injection h1 with h1
          subst h1
          simp only at i1 i2 i3 i4
          refine ⟨i1, i2, by rw [i3, List.length_cons]; omega, fun _ => ?_⟩
          cases ds with
          | nil => rw [i3]; simp only [List.length_nil]; omega
          | cons e es => exact i4 (by simp)

theorem assign_fresh {node : DevId → Option NodeId} {ds : List DevId} : ∀ {P : AddrPlan}, ds.Nodup → (∀ d ∈ ds, ∃ n, node d = some n) →
    (∀ d ∈ ds, ∀ n x, (d, x) ∉ P.ifaces n) → (∀ ip ∈ P.given, ip < P.net + P.host) → P.host + ds.length ≤ 2 ^ P.bits - 2 + 1 →
    ∃ Q, P.assign node ds = some Q ∧ (∀ ip ∈ Q.given, ip < Q.net + Q.host) ∧ ∀ n, Q.ifaces n = P.ifaces n ++ handedOut node P.net P.host ds n := by
  induction ds with
  | nil => intro P _ _ _ hg _; exact ⟨P, rfl, hg, fun n => by simp [handedOut]⟩
  | cons d ds ih =>
    intro P hnd hnode hnew hg hb
    rw [List.nodup_cons] at hnd
    rw [List.length_cons] at hb
    obtain ⟨m, hm⟩ := hnode d List.mem_cons_self
    have hone : P.assignOne node d = some { P with host := P.host + 1, given := (P.net + P.host) :: P.given, ifaces := fun n => P.ifaces n ++ if n = m then [(d, [P.net + P.host])] else [] } := by
      unfold AddrPlan.assignOne
      rw [hm]
      simp only
      rw [if_neg (by omega), if_neg (fun h => Nat.lt_irrefl _ (hg _ h))]
      congr 2
      funext n
      by_cases hn : n = m
      · rw [if_pos hn, if_pos hn, addToIface_new (hnew d List.mem_cons_self n)]
      · rw [if_neg hn, if_neg hn, List.append_nil]
    obtain ⟨Q, q1, q2, q3⟩ := ih (P := { P with host := P.host + 1, given := (P.net + P.host) :: P.given, ifaces := fun n => P.ifaces n ++ if n = m then [(d, [P.net + P.host])] else [] })
      hnd.2 (fun e he => hnode e (List.mem_cons_of_mem _ he))
      (by
        intro e he n x hx
        rw [List.mem_append] at hx
        rcases hx with hx | hx
        · exact hnew e (List.mem_cons_of_mem _ he) n x hx
        · split at hx
          · rw [List.mem_singleton] at hx
            injection hx with hx
            subst hx
            exact hnd.1 he
          · cases hx)
      (by
        intro ip hip
        rw [List.mem_cons] at hip
        show ip < P.net + (P.host + 1)
        rcases hip with rfl | hip
        · exact Nat.lt_succ_self _
        · exact Nat.lt_succ_of_lt (hg ip hip))
      (by show P.host + 1 + ds.length ≤ 2 ^ P.bits - 2 + 1; omega)
    refine ⟨Q, ?_, q2, fun n => ?_⟩
    · rw [AddrPlan.assign, hone]
      exact q1
    · rw [q3 n, List.append_assoc]
      congr 1
      unfold handedOut
      rw [List.zipIdx_cons, List.filter_cons]
      by_cases hn : n = m
      · subst hn
        simp [hm]
      · have : ¬ node d = some n := by rw [hm]; simpa using fun h => hn h.symm
        simp [this, hn]

theorem mem_handedOut {node : DevId → Option NodeId} {net host : Nat} {ds : List DevId} {n : NodeId} {d : DevId} {l : List Ip} :
    (d, l) ∈ handedOut node net host ds n ↔ ∃ i : Nat, ds[i]? = some d ∧ node d = some n ∧ l = [net + (host + i)] := by
  unfold handedOut
  simp only [List.mem_map, List.mem_filter, decide_eq_true_eq, Prod.exists, Prod.mk.injEq]
  constructor
  · rintro ⟨e, j, ⟨h1, h2⟩, rfl, rfl⟩
    obtain ⟨h3, h4⟩ := List.mem_zipIdx_iff_le_and_getElem?_sub.mp h1
    exact ⟨j - host, h4, h2, by rw [Nat.add_sub_cancel' h3]⟩
  · rintro ⟨i, h1, h2, rfl⟩
    exact ⟨d, host + i, ⟨List.mem_zipIdx_iff_le_and_getElem?_sub.mpr ⟨Nat.le_add_right _ _, by simpa using h1⟩, h2⟩, rfl, rfl⟩

end Verif
