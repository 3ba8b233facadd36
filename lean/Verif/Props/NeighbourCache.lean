import Verif.Lemmas.NeighbourCache
/-! # C58: neighbour caches

`ArpCacheHelper` and `NdCacheHelper` look up the IP address of a device at the device's *interface index* (its position on
its node) instead of its position in the container.  The property is false in general; the theorems give the exact law, the
condition under which the caches are right, and the consequences on fresh nodes. -/

namespace Verif
open Spec

/-- C58 (exact law): if the installation returns, the cache of the device at position `i` answers with the address of the
last device entered under the IP address, and as before for all other addresses. -/
theorem C58_law {b : Build} {ds : List DevId} {ips : List Ip} {ca ca' : DevId → Cache}
    (h : arpInstall b ds ips ca = .ok ca') (hd : ds.Nodup) {i : Nat} {d : DevId} (hi : ds[i]? = some d) (ip : Ip) :
    answer (ca' d) ip = match (writers b ds ips i d ip).getLast? with
      | some e => some (b.sys.dev e).addr
      | none => answer (ca d) ip := by
  have h1 := fillOne_spec ((fillAll_spec h hd).1 i d hi) ip
  rw [h1]
  have e : writers b ds ips i d ip = (ds.zipIdx.filter (fun x => Writes b ips (0 + i) d ip x)).map (·.1) := by
    rw [Nat.zero_add]; rfl
  rw [e]
  rcases List.eq_nil_or_concat (ds.zipIdx.filter (fun x => Writes b ips (0 + i) d ip x)) with h0 | ⟨l, z, hz⟩
  · rw [h0]; simp
  · rw [hz, List.concat_eq_append]
    simp

/-- C58: both helpers do the same; ND takes the second addresses of the interfaces. -/
theorem C58_nd_same (b : Build) (ds : List DevId) (ips : List Ip) (ca : DevId → Cache) :
    ndInstall b ds ips ca = arpInstall b ds ips ca := rfl

/-- C58 (partial): if every device's interface index on its node is its position in the container and the IP addresses
differ, the installation returns and every device's cache answers the IP address of every peer with the peer's address.
Missing for the full claim: any other interface indices, see `C58_missing`, `C58_fresh_isl`, `C58_out_of_range`. -/
theorem C58_aligned_partial {b : Build} {ds : List DevId} {ips : List Ip} (ca : DevId → Cache) (hd : ds.Nodup)
    (hl : ips.length = ds.length) (hip : ips.Nodup) (hx : ∀ (j : Nat) e, ds[j]? = some e → b.ifIndex e = j) :
    ∃ ca', arpInstall b ds ips ca = .ok ca' ∧
      (∀ (i j : Nat) d e ip, ds[i]? = some d → ds[j]? = some e → i ≠ j → Peers (b.sys.dev d) (b.sys.dev e) →
        ips[j]? = some ip → answer (ca' d) ip = some (b.sys.dev e).addr) ∧
      ∀ d, d ∉ ds → ca' d = ca d := by
  obtain ⟨ca', h⟩ := fillAll_total (b := b) (ips := ips) (all := ds) (ds := ds) (i := 0) (ca := ca) (by
    intro e he
    obtain ⟨j, hj, rfl⟩ := List.mem_iff_getElem.mp he
    rw [hx j _ (List.getElem?_eq_getElem hj)]
    omega)
  refine ⟨ca', h, ?_, (fillAll_spec h hd).2⟩
  intro i j d e ip hi hj hij hp hipj
  rw [C58_law h hd hi ip]
  have hw : ∀ x, x ∈ writers b ds ips i d ip ↔ x = e := by
    intro x
    simp only [writers, List.mem_map, List.mem_filter, decide_eq_true_eq, ne_eq]
    constructor
    · rintro ⟨⟨y, t⟩, ⟨hm, _, _, h3⟩, rfl⟩
      have hyt : ds[t]? = some y := List.mem_zipIdx_iff_getElem?.mp hm
      simp only at h3
      rw [hx t y hyt] at h3
      obtain ⟨a1, a2⟩ := List.getElem?_eq_some_iff.mp h3
      obtain ⟨c1, c2⟩ := List.getElem?_eq_some_iff.mp hipj
      have : t = j := (List.Nodup.getElem_inj_iff hip).mp (a2.trans c2.symm)
      subst this
      rw [hyt] at hj
      injection hj
    · rintro rfl
      refine ⟨(x, j), ⟨List.mem_zipIdx_iff_getElem?.mpr hj, fun h => hij h.symm, hp, ?_⟩, rfl⟩
      simp only
      rw [hx j x hj]
      exact hipj
  cases hg : (writers b ds ips i d ip).getLast? with
  | none =>
    rw [List.getLast?_eq_none_iff] at hg
    have := (hw e).mpr rfl
    rw [hg] at this
    simp at this
  | some x =>
    have := (hw x).mp (List.mem_of_getLast? hg)
    rw [this]

/-- The condition can be met: a satellite that already has a device, second in the container. -/
example (s : Sys) : ∃ b ds b0 l, IslHelper.create.install [1] (Build.start s) = .ok (b0, l) ∧
    IslHelper.create.install [0, 1] b0 = .ok (b, ds) ∧ ds.Nodup ∧ ds.length = 2 ∧
    ∀ (j : Nat) e, ds[j]? = some e → b.ifIndex e = j := by
  refine ⟨_, [1, 2], _, _, rfl, rfl, by decide, rfl, ?_⟩
  intro j e h
  match j, h with
  | 0, h => injection h with h; subst h; rfl
  | 1, h => injection h with h; subst h; rfl

/-- C58 (what goes wrong): an IP address at a container position that is no device's interface index is entered in no
cache. -/
theorem C58_missing {b : Build} {ds : List DevId} {ips : List Ip} {ca ca' : DevId → Cache}
    (h : arpInstall b ds ips ca = .ok ca') (hd : ds.Nodup) (hip : ips.Nodup) {j : Nat} {ip : Ip} (hj : ips[j]? = some ip)
    (hx : ∀ e ∈ ds, b.ifIndex e ≠ j) {d : DevId} (hm : d ∈ ds) : answer (ca' d) ip = answer (ca d) ip := by
  obtain ⟨i, hi, rfl⟩ := List.mem_iff_getElem.mp hm
  rw [C58_law h hd (List.getElem?_eq_getElem hi) ip]
  have : writers b ds ips i ds[i] ip = [] := by
    rw [List.eq_nil_iff_forall_not_mem]
    intro x hxm
    simp only [writers, List.mem_map, List.mem_filter, decide_eq_true_eq, ne_eq] at hxm
    obtain ⟨⟨y, t⟩, ⟨hm, _, _, h3⟩, rfl⟩ := hxm
    obtain ⟨a1, a2⟩ := List.getElem?_eq_some_iff.mp h3
    obtain ⟨c1, c2⟩ := List.getElem?_eq_some_iff.mp hj
    have : b.ifIndex y = j := (List.Nodup.getElem_inj_iff hip).mp (a2.trans c2.symm)
    exact hx y (List.fst_mem_of_mem_zipIdx hm) this
  rw [this]
  rfl

/-- C58 is false on fresh nodes (inter-satellite network, any number of distinct satellites without devices): the
installation returns, but no cache knows the IP address of any satellite but the first, and under the first satellite's
IP address the cache of every satellite but the last (the first included) has the address of the last satellite. -/
theorem C58_fresh_isl {h : IslHelper} (hleo : h.dev.leo = false) {b : Build} {nodes : List NodeId} (hm : b.lastMac + nodes.length < 2 ^ 48)
    (hf : ∀ n ∈ nodes, b.nodeDevs n = []) (hn : nodes.Nodup) {ips : List Ip} (hl : ips.length = nodes.length)
    (hip : ips.Nodup) :
    ∃ b' ds ca, h.install nodes b = .ok (b', ds) ∧ arpInstall b' ds ips (fun _ => []) = .ok ca ∧
      (∀ (j : Nat) ip, 0 < j → ips[j]? = some ip → ∀ d ∈ ds, answer (ca d) ip = none) ∧
      ∀ (i : Nat) d ip last, ips[0]? = some ip → ds.getLast? = some last → ds[i]? = some d → i + 1 < ds.length →
        answer (ca d) ip = some (b'.sys.dev last).addr := by
  obtain ⟨b', e, hi⟩ := isl_install_eq (h := h) (b := b) (nodes := nodes) hm
  have hidx : ∀ d ∈ List.range' b.nextDev nodes.length, b'.ifIndex d = 0 := by
    intro d hd
    obtain ⟨i, h1, rfl⟩ := mem_range'_one hd
    have hg : nodes[i]? = some nodes[i] := List.getElem?_eq_getElem h1
    rw [(hi.new i nodes[i] hg).2.1, hf _ (List.getElem_mem h1)]
    rw [List.length_nil, Nat.zero_add, List.count_eq_zero]
    intro hmem
    obtain ⟨t, ht, heq⟩ := List.mem_iff_getElem.mp hmem
    rw [List.length_take] at ht
    rw [List.getElem_take] at heq
    have := (List.Nodup.getElem_inj_iff hn).mp heq
    omega
  obtain ⟨ca, hc⟩ := fillAll_total (b := b') (ips := ips) (all := List.range' b.nextDev nodes.length)
    (ds := List.range' b.nextDev nodes.length) (i := 0) (ca := fun _ => []) (by
      intro x hx
      rw [hidx x hx]
      have := (List.mem_range'_1.mp hx)
      omega)
  refine ⟨b', _, ca, e, hc, ?_, ?_⟩
  · intro j ip hj hipj d hd
    rw [C58_missing hc List.nodup_range' hip hipj (fun x hx => by rw [hidx x hx]; omega) hd]
    rfl
  · intro i d ip last hip0 hlast hi' hlt
    rw [C58_law hc List.nodup_range' hi' ip]
    have hlen : (List.range' b.nextDev nodes.length).length = nodes.length := List.length_range'
    rw [hlen] at hlt
    obtain ⟨k, hk⟩ : ∃ k, nodes.length = k + 1 := ⟨nodes.length - 1, by omega⟩
    have hr : List.range' b.nextDev nodes.length = List.range' b.nextDev k ++ [b.nextDev + k] := by
      rw [hk, List.range'_concat, Nat.one_mul]
    rw [hr, List.getLast?_concat] at hlast
    injection hlast with hlast
    subst hlast
    have hmem : b.nextDev + k ∈ List.range' b.nextDev nodes.length := by rw [hr]; simp
    have hg : nodes[k]? = some nodes[k] := List.getElem?_eq_getElem (by omega)
    have hnl : (b'.sys.dev (b.nextDev + k)).leo = false := by
      rw [(hi.new k _ hg).1]
      exact (create_fixed h.dev).1.trans hleo
    have hw : writers b' (List.range' b.nextDev nodes.length) ips i d ip =
        writers b' (List.range' b.nextDev k) ips i d ip ++ [b.nextDev + k] := by
      unfold writers
      rw [hr, List.zipIdx_append, List.filter_append, List.map_append]
      congr 1
      have : (b.nextDev + k, k).2 ≠ i ∧ Peers (b'.sys.dev d) (b'.sys.dev (b.nextDev + k, k).1) ∧
          ips[b'.ifIndex (b.nextDev + k, k).1]? = some ip := by
        refine ⟨by simp only; omega, ?_, ?_⟩
        · simp [Peers, hnl]
        · simp only; rw [hidx _ hmem]; exact hip0
      simp only [List.zipIdx_cons, List.zipIdx_nil, List.length_range', Nat.zero_add]
      rw [List.filter_cons, if_pos (decide_eq_true this)]
      rfl
    rw [hw, List.getLast?_concat]

/-- Three fresh satellites meet the conditions. -/
example (s : Sys) : (Build.start s).lastMac + [1, 2, 3].length < 2 ^ 48 ∧
    (∀ n ∈ [1, 2, 3], (Build.start s).nodeDevs n = []) ∧ [1, 2, 3].Nodup ∧ IslHelper.create.dev.leo = false :=
  ⟨(show 0 + 3 < 2 ^ 48 by decide), fun _ _ => rfl, by decide, rfl⟩

/-- C58 can even be undefined behaviour: if some peer's interface index is not below the number of interfaces, the
installation reads past the end of the interface container. -/
theorem C58_out_of_range {b : Build} {ds : List DevId} {ips : List Ip} (ca : DevId → Cache) {i j : Nat} {d e : DevId}
    (hi : ds[i]? = some d) (hj : ds[j]? = some e) (hij : i ≠ j) (hp : Peers (b.sys.dev d) (b.sys.dev e))
    (hx : ips.length ≤ b.ifIndex e) : arpInstall b ds ips ca = .fail .indexOutOfRange := by
  have key : ∀ (rest : List DevId) (k t : Nat) (ca : DevId → Cache), k + t = i → rest[t]? = some d →
      fillAll b ips ds rest k ca = .fail .indexOutOfRange := by
    intro rest
    induction rest with
    | nil => intro k t ca _ h; simp at h
    | cons x rest ih =>
      intro k t ca hkt ht
      simp only [fillAll]
      cases hfo : fillOne b ips k x ds 0 (ca x) with
      | fail f => rw [fillOne_fail hfo]; rfl
      | ok c =>
        cases t with
        | zero =>
          simp only [List.getElem?_cons_zero, Option.some.injEq] at ht
          subst ht
          have := fillOne_total.mp ⟨c, hfo⟩ (e, j) (List.mem_zipIdx_iff_getElem?.mpr hj) (by simp only; omega) hp
          simp only at this
          omega
        | succ t =>
          rw [Outcome.ok_bind]
          exact ih (k + 1) t _ (by omega) (by simpa using ht)
  exact key ds 0 i ca (by omega) hi

end Verif
