import Verif.Spec.Legacy
import Verif.Props.Settings
import Mathlib.Tactic.NormNum
/-!
# The addresses of `LeoHelper`: C128
-/

namespace Verif
namespace LegacyProofs
open Spec

theorem or_lt {x y : Nat} (hx : x < 4294967296) (hy : y < 4294967296) : x ||| y < 4294967296 := by
  have e : (4294967296 : Nat) = 2 ^ 32 := by norm_num
  rw [e] at hx hy ⊢
  exact Nat.or_lt_two_pow hx hy

theorem high_or {a : Nat} (h : a < 2147483648) : 2147483648 ||| a = 2147483648 + a := by
  have e : (2147483648 : Nat) = 2 ^ 31 := by norm_num
  rw [e] at h ⊢
  have := Nat.two_pow_add_eq_or_of_lt h 1
  rw [Nat.mul_one] at this
  exact this.symm

theorem or_ones {x : Nat} (h : x ||| 4294967295 < 4294967296) : x ||| 4294967295 = 4294967295 :=
  Nat.le_antisymm (Nat.le_of_lt_succ h) Nat.right_le_or

theorem shl32_wide {ub n s : Nat} (h : ¬ s < 32) : shl32 ub n s = ub % 4294967296 := by
  unfold shl32
  rw [if_neg h]

theorem wide : ¬ 4294967295 < 32 := by decide

theorem first_or (ub : Nat) : shl32 ub 4294967295 4294967295 ||| 4294967295 = 4294967295 := by
  rw [shl32_wide wide]
  exact or_ones (or_lt (Nat.mod_lt _ (by decide)) (by decide))

/-- The first address, whatever the shift gives. -/
theorem assign_first {ub n : Nat} {given : List Ip} (hn : 0 < n) :
    AddrHelper.assign ub n .create given = if (4294967295 : Nat) ∈ given then none else
      (AddrHelper.assign ub (n - 1) ⟨4294967295, 4294967295, 0, 4294967295⟩ ((4294967295 : Nat) :: given)).map fun r => ((4294967295 : Nat) :: r.1, r.2) := by
  obtain ⟨m, rfl⟩ : ∃ m, n = m + 1 := ⟨n - 1, by omega⟩
  rw [AddrHelper.assign, if_neg (show ¬ AddrHelper.create.max < AddrHelper.create.address from Nat.lt_irrefl 4294967295)]
  simp only [AddrHelper.create, first_or]
  rw [if_neg (by decide)]
  rfl

theorem shifted (a : Nat) : shl32 (2147483648) (4294967295) (4294967295) ||| a = 2147483648 ||| a := by
  rw [shl32_wide wide, Nat.mod_eq_of_lt (by decide)]

/-- From there on, if the shift count is taken modulo 32. -/
theorem assign_next (n : Nat) : ∀ (a : Nat) (given : List Ip), (∀ ip ∈ given, ip < 2147483648 + a ∨ (ip : Nat) = 4294967295) → a + n < 2147483648 - 1 →
    ∃ given', AddrHelper.assign (2147483648) n ⟨4294967295, 4294967295, a, 4294967295⟩ given =
        some (List.range' (2147483648 + a) n, ⟨4294967295, 4294967295, a + n, 4294967295⟩, given') ∧
      (∀ ip ∈ given', ip < 2147483648 + (a + n) ∨ (ip : Nat) = 4294967295) ∧ ∀ ip ∈ given, ip ∈ given' := by
  induction n with
  | zero => intro a given hg _; exact ⟨given, rfl, hg, fun _ h => h⟩
  | succ n ih =>
    intro a given hg h3
    have hor : shl32 (2147483648) (4294967295) (4294967295) ||| a = 2147483648 + a := by
      rw [shifted]
      exact high_or (by omega)
    have hni : (2147483648 + a : Nat) ∉ given := by
      intro hm
      rcases hg _ hm with h | h
      · exact absurd h (Nat.lt_irrefl _)
      · have h : (2147483648 + a : Nat) = 4294967295 := h
        omega
    obtain ⟨given', e, g1, g2⟩ := ih (a + 1) ((2147483648 + a : Nat) :: given) (by
      intro ip hm
      rcases List.mem_cons.mp hm with rfl | hm
      · left; exact (show (2147483648 + a : Nat) < 2147483648 + (a + 1) by omega)
      · rcases hg _ hm with h | h
        · left; exact Nat.lt_trans h (show (2147483648 + a : Nat) < 2147483648 + (a + 1) by omega)
        · exact Or.inr h) (by omega)
    refine ⟨given', ?_, ?_, fun ip hm => g2 ip (List.mem_cons_of_mem _ hm)⟩
    · rw [AddrHelper.assign, if_neg (by show ¬ (4294967295 < a); omega)]
      simp only [hor]
      rw [if_neg (by omega), if_neg hni]
      have hmod : (a + 1) % 4294967296 = a + 1 := Nat.mod_eq_of_lt (by omega)
      rw [hmod, e]
      show some ((2147483648 + a) :: List.range' (2147483648 + (a + 1)) n, _) = _
      rw [List.range'_succ]
      have e1 : a + 1 + n = a + (n + 1) := by omega
      rw [e1]
      rfl
    · intro ip hm
      have := g1 ip hm
      have e1 : a + 1 + n = a + (n + 1) := by omega
      rwa [e1] at this

/-- Addresses that were given stay given. -/
theorem assign_keeps {ub : Nat} : ∀ {n : Nat} {h h' : AddrHelper} {given given' ips : List Ip}, AddrHelper.assign ub n h given = some (ips, h', given') →
    (∀ ip ∈ given, ip ∈ given') ∧ ∀ ip ∈ ips, ip ∈ given' := by
  intro n
  induction n with
  | zero =>
    intro h h' given given' ips e
    cases e
    exact ⟨fun _ hm => hm, fun _ hm => by cases hm⟩
  | succ n ih =>
    intro h h' given given' ips e
    rw [AddrHelper.assign] at e
    split at e
    · cases e
    · simp only at e
      split at e
      · cases e
      · split at e
        · cases e
        · rw [Option.map_eq_some_iff] at e
          obtain ⟨⟨l, h2, g2⟩, e1, e2⟩ := e
          cases e2
          obtain ⟨k1, k2⟩ := ih e1
          refine ⟨fun ip hm => k1 ip (List.mem_cons_of_mem _ hm), fun ip hm => ?_⟩
          rcases List.mem_cons.mp hm with rfl | hm
          · exact k1 _ List.mem_cons_self
          · exact k2 ip hm

/-- The first address is recorded. -/
theorem assign_gives {ub n : Nat} {h h' : AddrHelper} {given given' ips : List Ip} (hn : 0 < n) (e : AddrHelper.assign ub n h given = some (ips, h', given')) :
    (shl32 ub h.network h.shift ||| h.address : Nat) ∈ given' := by
  obtain ⟨m, rfl⟩ : ∃ m, n = m + 1 := ⟨n - 1, by omega⟩
  have k := (assign_keeps e).2
  rw [AddrHelper.assign] at e
  split at e
  · cases e
  · simp only at e
    split at e
    · cases e
    · split at e
      · cases e
      · rw [Option.map_eq_some_iff] at e
        obtain ⟨⟨r1, r2, r3⟩, _, e2⟩ := e
        cases e2
        exact k _ List.mem_cons_self

/-- It is not given again. -/
theorem assign_again {ub n : Nat} {h : AddrHelper} {given : List Ip} (hn : 0 < n) (hin : (shl32 ub h.network h.shift ||| h.address : Nat) ∈ given) :
    AddrHelper.assign ub n h given = none := by
  obtain ⟨m, rfl⟩ : ∃ m, n = m + 1 := ⟨n - 1, by omega⟩
  rw [AddrHelper.assign]
  split
  · rfl
  · simp only
    split
    · rfl
    · rfl

end LegacyProofs

open Spec LegacyProofs

/-- **C128** fails: whatever the undefined shift gives, whatever the settings and nodes (with a satellite): if addresses are assigned at all, the first inter-satellite device gets the
broadcast address 255.255.255.255. -/
theorem C128_broadcast {ss : List Setting} {h : LeoHelper} (hc : LeoHelper.create.configure ss = .ok h) (b : Build) {sats : List NodeId} (gws uts : List NodeId)
    (hs : sats ≠ []) (hm : Room b sats gws uts) (ub : Nat) (given : List Ip) :
    ∃ b' n, h.installNets sats gws uts b = .ok (b', n) ∧ ∀ isl gw ut given', leoAddresses ub given n.isl.length n.gw.length n.ut.length = some ((isl, gw, ut), given') →
      isl.head? = some (dotted 255 255 255 255) ∧ ¬ GoodAddresses isl := by
  obtain ⟨b', n, e, hi⟩ := installNets_eq (leo_of_configure hc) hm
  refine ⟨b', n, e, fun isl gw ut given' ha => ?_⟩
  have hl : 0 < n.isl.length := by rw [hi.isl, List.length_range']; exact List.length_pos_iff.mpr hs
  unfold leoAddresses leoAddressesFrom at ha
  rw [Option.bind_eq_some_iff] at ha
  obtain ⟨a, ha1, ha⟩ := ha
  rw [Option.bind_eq_some_iff] at ha
  obtain ⟨b1, _, ha⟩ := ha
  rw [Option.map_eq_some_iff] at ha
  obtain ⟨c, _, ha⟩ := ha
  cases ha
  rw [assign_first hl] at ha1
  split at ha1
  · cases ha1
  · rw [Option.map_eq_some_iff] at ha1
    obtain ⟨r, _, rfl⟩ := ha1
    refine ⟨rfl, fun hg => ?_⟩
    have := (hg.2 _ List.mem_cons_self).2
    revert this
    decide

/-- **C128** fails: a second installation in the same program stops, whatever the shift gives and whatever is installed in between. -/
theorem C128_once {ub ub' : Nat} {given given' given'' : List Ip} {isl gw ut isl' gw' ut' : Nat} {ips : List Ip × List Ip × List Ip} (h1 : 0 < isl) (h2 : 0 < isl')
    (h : leoAddresses ub given isl gw ut = some (ips, given')) (hmore : ∀ ip ∈ given', ip ∈ given'') : leoAddresses ub' given'' isl' gw' ut' = none := by
  unfold leoAddresses leoAddressesFrom at h
  rw [Option.bind_eq_some_iff] at h
  obtain ⟨⟨a1, a2, a3⟩, ha, h⟩ := h
  rw [Option.bind_eq_some_iff] at h
  obtain ⟨⟨b1, b2, b3⟩, hb, h⟩ := h
  rw [Option.map_eq_some_iff] at h
  obtain ⟨⟨c1, c2, c3⟩, hcc, h⟩ := h
  cases h
  have hin : (4294967295 : Nat) ∈ a3 := by
    have k := (assign_keeps ha).2
    rw [assign_first h1] at ha
    split at ha
    · cases ha
    · rw [Option.map_eq_some_iff] at ha
      obtain ⟨r, _, e⟩ := ha
      refine k _ ?_
      have : a1 = (4294967295 : Nat) :: r.1 := (congrArg Prod.fst e).symm
      rw [this]
      exact List.mem_cons_self
  have hin' := hmore _ ((assign_keeps hcc).1 _ ((assign_keeps hb).1 _ hin))
  unfold leoAddresses leoAddressesFrom
  rw [assign_first h2, if_pos hin']
  rfl

/-- **C128** fails, without assumptions on what a new `Ipv4AddressHelper` holds: a program in which the same shift gives the same result cannot install twice, since the second helper
starts like the first and the first address was given. -/
theorem C128_once_any_helper {h : AddrHelper} {ub : Nat} {given given' given'' : List Ip} {isl gw ut isl' gw' ut' : Nat} {ips : List Ip × List Ip × List Ip} (h1 : 0 < isl) (h2 : 0 < isl')
    (he : leoAddressesFrom h ub given isl gw ut = some (ips, given')) (hmore : ∀ ip ∈ given', ip ∈ given'') : leoAddressesFrom h ub given'' isl' gw' ut' = none := by
  unfold leoAddressesFrom at he
  rw [Option.bind_eq_some_iff] at he
  obtain ⟨⟨a1, a2, a3⟩, ha, he⟩ := he
  rw [Option.bind_eq_some_iff] at he
  obtain ⟨⟨b1, b2, b3⟩, hb, he⟩ := he
  rw [Option.map_eq_some_iff] at he
  obtain ⟨⟨c1, c2, c3⟩, hcc, he⟩ := he
  cases he
  have hin := hmore _ ((assign_keeps hcc).1 _ ((assign_keeps hb).1 _ (assign_gives h1 ha)))
  unfold leoAddressesFrom
  rw [assign_again h2 hin]
  rfl

/-- A helper with the base 10.1.0.0: once it works, a second time it does not. -/
example : ∃ ips given, leoAddressesFrom ⟨2561, 16, 1, 65534⟩ 0 [] 2 3 4 = some (ips, given) ∧ GoodAddresses (ips.1 ++ ips.2.1 ++ ips.2.2) ∧
    leoAddressesFrom ⟨2561, 16, 1, 65534⟩ 0 given 2 3 4 = none := by
  refine ⟨_, _, rfl, ⟨by decide +kernel, by decide +kernel⟩, by decide +kernel⟩

/-- **C128**: where the shift gives 0 the program stops as soon as there are two satellites. -/
theorem C128_stops {given : List Ip} {isl gw ut : Nat} (h : 2 ≤ isl) : leoAddresses 0 given isl gw ut = none := by
  unfold leoAddresses leoAddressesFrom
  rw [assign_first (by omega)]
  obtain ⟨m, hm⟩ : ∃ m, isl - 1 = m + 1 := ⟨isl - 2, by omega⟩
  have : AddrHelper.assign 0 (isl - 1) ⟨4294967295, 4294967295, 0, 4294967295⟩ ((4294967295 : Nat) :: given) = none := by
    rw [hm, AddrHelper.assign, if_neg (by decide)]
    rfl
  rw [this]
  split <;> rfl

/-- **C128**, the part that holds: in a new program, where the count of the shift is taken modulo 32 (as x86 processors do), all devices get different addresses: after the broadcast
address, 128.0.0.0 and those that follow, network by network.  The addresses other than the first are good. -/
theorem C128_addresses_partial {isl gw ut : Nat} (h1 : 0 < isl) (hN : isl + gw + ut < 2 ^ 30) :
    ∃ islIps gwIps utIps given, leoAddresses (2147483648) [] isl gw ut = some ((islIps, gwIps, utIps), given) ∧
      islIps.length = isl ∧ gwIps.length = gw ∧ utIps.length = ut ∧
      islIps ++ gwIps ++ utIps = dotted 255 255 255 255 :: List.range' (dotted 128 0 0 0) (isl + gw + ut - 1) ∧
      (islIps ++ gwIps ++ utIps).Nodup ∧ GoodAddresses (islIps ++ gwIps ++ utIps).tail := by
  obtain ⟨g1, e1, k1, _⟩ := assign_next (isl - 1) 0 [(4294967295 : Nat)] (by
    intro ip hm
    rw [List.mem_singleton] at hm
    exact Or.inr hm) (by omega)
  obtain ⟨g2, e2, k2, _⟩ := assign_next gw (0 + (isl - 1)) g1 k1 (by omega)
  obtain ⟨g3, e3, k3, _⟩ := assign_next ut (0 + (isl - 1) + gw) g2 k2 (by omega)
  have hd : dotted 128 0 0 0 = (2147483648 : Nat) := by decide
  have hd' : dotted 224 0 0 0 = (3758096384 : Nat) := by decide
  have hlist : ((4294967295 : Nat) :: List.range' (2147483648 + 0) (isl - 1)) ++ List.range' (2147483648 + (0 + (isl - 1))) gw ++ List.range' (2147483648 + (0 + (isl - 1) + gw)) ut =
      (4294967295 : Nat) :: List.range' (2147483648) (isl + gw + ut - 1) := by
    rw [List.cons_append, List.cons_append]
    congr 1
    have e : isl + gw + ut - 1 = isl - 1 + gw + ut := by omega
    rw [e, Nat.add_zero, Nat.zero_add, List.range'_append_1, List.range'_append_1]
  refine ⟨(4294967295 : Nat) :: List.range' (2147483648 + 0) (isl - 1), List.range' (2147483648 + (0 + (isl - 1))) gw, List.range' (2147483648 + (0 + (isl - 1) + gw)) ut, g3, ?_, ?_, ?_, ?_, ?_, ?_, ?_⟩
  · unfold leoAddresses leoAddressesFrom
    rw [assign_first h1, if_neg (by simp), e1]
    show ((AddrHelper.assign _ gw _ g1).bind _) = _
    rw [e2]
    show ((AddrHelper.assign _ ut _ g2).map _) = _
    rw [e3]
    rfl
  · rw [List.length_cons, List.length_range']; omega
  · exact List.length_range'
  · exact List.length_range'
  · rw [hlist, hd]; rfl
  · rw [hlist, List.nodup_cons]
    refine ⟨fun hm => ?_, List.nodup_range'⟩
    rw [List.mem_range'_1] at hm
    omega
  · rw [hlist, List.tail_cons]
    refine ⟨List.nodup_range', fun ip hm => ?_⟩
    rw [hd']
    have hm := List.mem_range'_1.mp hm
    exact ⟨Nat.lt_of_lt_of_le (by decide) hm.1, Nat.lt_of_lt_of_le hm.2 (by omega)⟩

/-- Two satellites, a gateway and two terminals. -/
example : leoAddresses (2147483648) [] 2 3 4 = some (([dotted 255 255 255 255, dotted 128 0 0 0], [dotted 128 0 0 1, dotted 128 0 0 2, dotted 128 0 0 3],
    [dotted 128 0 0 4, dotted 128 0 0 5, dotted 128 0 0 6, dotted 128 0 0 7]), [dotted 128 0 0 7, dotted 128 0 0 6, dotted 128 0 0 5, dotted 128 0 0 4, dotted 128 0 0 3,
      dotted 128 0 0 2, dotted 128 0 0 1, dotted 128 0 0 0, dotted 255 255 255 255]) := by
  decide +kernel

/-- The hypotheses of `C128_broadcast` can be met. -/
example (s : Sys) : (∃ h, LeoHelper.create.configure [.device (.mtu 900)] = .ok h) ∧ Room (Build.start s) [0, 1] [2] [3, 4] :=
  ⟨⟨_, rfl⟩, show 0 + 3 * 2 + 1 + 2 < 2 ^ 48 by decide⟩

end Verif
