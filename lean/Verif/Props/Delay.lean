import Verif.Model.Delay
import Verif.Spec.Delay
import Verif.Props.Causal
import Verif.Props.ParseDouble
/-!
# C114: what the delay tracing program prints
-/

namespace Verif
open Spec

/-! ## The packets of the client -/

theorem unBe_beBytes (n x : Nat) : unBe (beBytes n x) = x % 256 ^ n := by
  induction n generalizing x with
  | zero => simp [beBytes, unBe, Nat.mod_one]
  | succ n ih =>
    have h := ih (x / 256)
    unfold unBe at h ⊢
    rw [beBytes, List.foldl_append, h]
    simp only [List.foldl_cons, List.foldl_nil, UInt8.toNat_ofNat']
    have e8 : x % 256 % 2 ^ 8 = x % 256 := Nat.mod_eq_of_lt (by omega)
    have hp : x % 256 ^ (n + 1) = x % 256 + 256 * (x / 256 % 256 ^ n) := by rw [pow_succ', Nat.mod_mul]
    rw [e8, hp]
    ring

theorem beBytes_length (n x : Nat) : (beBytes n x).length = n := by
  induction n generalizing x with
  | zero => rfl
  | succ n ih => rw [beBytes, List.length_append, ih]; rfl

/-- The line printed for a packet of the client. -/
theorem echo_client {now T k : Nat} (hk : k < 2 ^ 32) (hT : T < 2 ^ 63) :
    echoRx now (clientPacket k T) = .ok ⟨now, k, (now : Int) - T⟩ := by
  have l4 := beBytes_length 4 k
  have l8 := beBytes_length 8 T
  have e1 : (clientPacket k T).take 4 = beBytes 4 k := by
    rw [clientPacket, List.append_assoc, List.take_append_of_le_length (by omega), List.take_of_length_le (by omega)]
  have e2 : ((clientPacket k T).drop 4).take 8 = beBytes 8 T := by
    rw [clientPacket, List.append_assoc, List.drop_append_of_le_length (by omega), List.drop_of_length_le (by omega), List.nil_append,
      List.take_append_of_le_length (by omega), List.take_of_length_le (by omega)]
  have e3 : ¬ (clientPacket k T).length < 12 := by
    rw [clientPacket, List.length_append, List.length_append]; omega
  rw [echoRx, if_neg e3, e1, e2]
  simp only [unBe_beBytes]
  rw [Nat.mod_eq_of_lt (by norm_num at hk ⊢; omega), Nat.mod_eq_of_lt (by norm_num at hT ⊢; omega), if_pos hT]

theorem udpClient_from (I count now sent : Nat) : ∀ n, count - sent = n →
    udpClient I count now sent = (List.range (max n 1)).map fun k => (now + k * I, clientPacket (sent + k) (now + k * I)) := by
  intro n
  induction n generalizing now sent with
  | zero =>
    intro h
    rw [udpClient, if_neg (by omega)]
    simp
  | succ n ih =>
    intro h
    rw [udpClient]
    by_cases hlt : sent + 1 < count
    · rw [if_pos hlt, ih (now + I) (sent + 1) (by omega)]
      have hn : max n 1 = n := by omega
      rw [hn, show max (n + 1) 1 = n + 1 by omega, List.range_succ_eq_map, List.map_cons, List.map_map]
      congr 1
      · simp
      · refine List.map_congr_left fun k _ => ?_
        simp only [Function.comp, Nat.succ_eq_add_one, Prod.mk.injEq]
        have : now + I + k * I = now + (k + 1) * I := by ring
        rw [this]
        exact ⟨rfl, by congr 1; omega⟩
    · rw [if_neg hlt, show n = 0 by omega]
      simp

/-- **C114**: the client makes one packet per interval, the first at once, numbered from 0 on; as many as it was told to, but not none. -/
theorem C114_client (I count : Nat) :
    udpClient I count 0 0 = (List.range (max count 1)).map fun k => (k * I, clientPacket k (k * I)) := by
  simpa using udpClient_from I count 0 0 count rfl

theorem client_mem {I count T : Nat} {x : Bytes} (h : (T, x) ∈ udpClient I count 0 0) :
    ∃ k, k < max count 1 ∧ T = k * I ∧ x = clientPacket k (k * I) := by
  rw [C114_client, List.mem_map] at h
  obtain ⟨k, hk, e⟩ := h
  injection e with e1 e2
  exact ⟨k, List.mem_range.mp hk, e1.symm, e2.symm⟩

/-! ## The lines that are printed -/

theorem echo_mem {udp : Bytes → Option Bytes} {sv : DevId → Bool} {log : List (Time × Ev)} {r : Outcome EchoLine} (h : r ∈ echoLines udp sv log) :
    ∃ t d p proto sa x, (t, Ev.rxCallback d p proto sa) ∈ log ∧ sv d = true ∧ udp p = some x ∧ r = echoRx t x := by
  obtain ⟨⟨t, e⟩, he, hh⟩ := List.mem_filterMap.mp h
  cases e with
  | rxCallback d p proto sa =>
    simp only at hh
    by_cases hs : sv d = true
    · rw [if_pos hs, Option.map_eq_some_iff] at hh
      obtain ⟨x, hx, e⟩ := hh
      exact ⟨t, d, p, proto, sa, x, he, hs, hx, e.symm⟩
    · rw [if_neg hs] at hh; cases hh
  | _ => cases hh

theorem client_inj {k k' T T' : Nat} (hk : k < 2 ^ 32) (hk' : k' < 2 ^ 32) (h : clientPacket k T = clientPacket k' T') : k = k' := by
  have := congrArg (fun b => unBe (List.take 4 b)) h
  have e : ∀ k T, (clientPacket k T).take 4 = beBytes 4 k := fun k T => by
    have l4 := beBytes_length 4 k
    rw [clientPacket, List.append_assoc, List.take_append_of_le_length (by omega), List.take_of_length_le (by omega)]
  simp only [e, unBe_beBytes] at this
  rwa [Nat.mod_eq_of_lt (by norm_num at hk ⊢; omega), Nat.mod_eq_of_lt (by norm_num at hk' ⊢; omega)] at this

/-- Packets with a payload of the client come from the client as C112 has it. -/
theorem one_carried {E : Env} {s0 : Sys} {ops : List Op} {udp : Bytes → Option Bytes} {a : NodeId} {I count : Nat}
    (hone : OneSource E s0 udp a (udpClient I count 0 0) ops) (hn : count < 2 ^ 32) {k : Nat} (hk : k < max count 1) :
    CarriedFrom E s0 (fun q => udp q = some (clientPacket k (k * I))) a (k * I) ops := by
  intro o1 src q dest pr o2 s1 e hs
  obtain ⟨u1, u2⟩ := hone o1 src q dest pr o2 s1 e hs
  refine ⟨u1, fun hq => ?_⟩
  rcases u2 _ hq with ⟨v1, T, v2, v3⟩ | v
  · obtain ⟨k', w1, rfl, w3⟩ := client_mem v2
    obtain rfl := client_inj (by omega) (by omega) w3
    exact Or.inl ⟨v1, v3⟩
  · exact Or.inr v

/-- Other payloads come from nowhere. -/
theorem one_carried_not {E : Env} {s0 : Sys} {ops : List Op} {udp : Bytes → Option Bytes} {a : NodeId} {I count : Nat}
    (hone : OneSource E s0 udp a (udpClient I count 0 0) ops) {x : Bytes} (hk : ¬ ∃ k, k < max count 1 ∧ x = clientPacket k (k * I)) (t0 : Time) :
    CarriedFrom E s0 (fun q => udp q = some x) a t0 ops := by
  intro o1 src q dest pr o2 s1 e hs
  obtain ⟨u1, u2⟩ := hone o1 src q dest pr o2 s1 e hs
  refine ⟨u1, fun hq => ?_⟩
  rcases u2 x hq with ⟨v1, T, v2, v3⟩ | v
  · obtain ⟨k', w1, _, w3⟩ := client_mem v2
    exact absurd ⟨k', w1, w3⟩ hk
  · exact Or.inr v

/-- A payload that was received was made by the client. -/
theorem payload_carried {E : Env} {s0 s : Sys} {ops : List Op} (h0 : Initial s0) (h : exec E s0 ops = .ok s) {udp : Bytes → Option Bytes}
    {a : NodeId} {I count : Nat} (hn : count < 2 ^ 32) (hone : OneSource E s0 udp a (udpClient I count 0 0) ops)
    {t : Time} {d : DevId} {p : Bytes} {proto : UInt16} {sa : Mac48} (hm : (t, Ev.rxCallback d p proto sa) ∈ s.log) {x : Bytes}
    (hx : udp p = some x) : ∃ k, k < max count 1 ∧ x = clientPacket k (k * I) ∧
      CarriedFrom E s0 (fun q => udp q = some x) a (k * I) ops := by
  by_cases hk : ∃ k, k < max count 1 ∧ x = clientPacket k (k * I)
  · obtain ⟨k, k1, rfl⟩ := hk
    exact ⟨k, k1, rfl, one_carried hone hn k1⟩
  · exfalso
    obtain ⟨T0, n, l, r1, _, r3, _⟩ := C112_way h0 h (one_carried_not hone hk (t + 1)) hm hx
    have := (way_ends r3).1
    have : t + 1 ≤ t := r1.trans this
    omega

/-- **C114**: whatever stack and routing protocol do, each line printed tells the time, the number of a packet the client made and its age:
the line belongs to a payload the client made at number times interval, which was sent at node `a` at or after that time, and got to the server
on a way of transmissions made one after the other. -/
theorem C114_lines {E : Env} {s0 s : Sys} {ops : List Op} (h0 : Initial s0) (h : exec E s0 ops = .ok s) {udp : Bytes → Option Bytes}
    {a b : NodeId} {sv : DevId → Bool} (hsv : ∀ d, sv d = true → (s0.dev d).node = some b)
    {I count : Nat} (hn : count < 2 ^ 32) (hI : count * I < 2 ^ 63) (hone : OneSource E s0 udp a (udpClient I count 0 0) ops)
    {r : Outcome EchoLine} (hr : r ∈ echoLines udp sv s.log) :
    ∃ (t k T0 : Nat) (l : List NodeId), r = .ok ⟨t, k, (t : Int) - (k * I : Nat)⟩ ∧ k < max count 1 ∧ k * I ≤ T0 ∧ T0 ≤ t ∧
      Way s.log (fun d => (s0.dev d).node) a T0 b t l ∧
      ∃ o1 src q dest pr o2 s1, ops = o1 ++ .send src q dest pr :: o2 ∧ exec E s0 o1 = .ok s1 ∧ s1.now = T0 ∧ (s0.dev src).node = some a ∧
        udp q = some (clientPacket k (k * I)) := by
  obtain ⟨t, d, p, proto, sa, x, m1, m2, m3, rfl⟩ := echo_mem hr
  obtain ⟨k, k1, rfl, k3⟩ := payload_carried h0 h hn hone m1 m3
  obtain ⟨T0, n, l, r1, r2, r3, _, r4⟩ := C112_way h0 h k3 m1 m3
  have hkI : k * I < 2 ^ 63 := by
    rcases Nat.lt_or_ge k count with hlt | hge
    · exact lt_of_le_of_lt (Nat.mul_le_mul_right I hlt.le) hI
    · have : k = 0 := by omega
      subst this
      simp
  rw [hsv d m2] at r2
  obtain rfl := Option.some.inj r2
  exact ⟨t, k, T0, l, echo_client (by omega) hkI, k1, r1, (way_ends r3).1, r3, r4⟩

/-- **C114**: a delay that is printed is at least the time the signal needs for the distance between the client, where it is when it sends, and the
server, where it is when it receives, up to the speed `V` of the nodes and one nanosecond per hop. -/
theorem C114_distance {K : Sky} {E : Env} {s0 s : Sys} {ops : List Op} (h0 : Initial s0) (h : exec (K.env E) s0 ops = .ok s) (hv : 0 < K.speed)
    (hof : ∀ x, 0 ≤ x → x * 1000000000 ≤ K.ofSeconds x + 1) {V : ℝ} (hV : 0 ≤ V) {N : Nat}
    (hpos : ∀ t c f src dst tx del, (t, Ev.txrx c f src dst tx del) ∈ s.log → ∀ n, (s0.dev dst).node = some n →
      @LT.lt Nat _ n N ∧ ∃ r, K.pos n = some r ∧ SlowerThan V r)
    {udp : Bytes → Option Bytes} {a b : NodeId} {ra : Time → Vec} (ha : @LT.lt Nat _ a N) (hra : K.pos a = some ra) (hrm : SlowerThan V ra)
    {sv : DevId → Bool} (hsv : ∀ d, sv d = true → (s0.dev d).node = some b)
    {I count : Nat} (hn : count < 2 ^ 32) (hI : count * I < 2 ^ 63) (hone : OneSource (K.env E) s0 udp a (udpClient I count 0 0) ops)
    {r : Outcome EchoLine} (hr : r ∈ echoLines udp sv s.log) :
    ∃ (t k T0 : Nat) (δ : Int) (rb : Time → Vec), r = .ok ⟨t, k, δ⟩ ∧ K.pos b = some rb ∧ k * I ≤ T0 ∧ T0 ≤ t ∧
      (rb t - ra T0).len ≤ (K.speed + V) * ((δ : ℝ) / 1000000000) + K.speed * (((N : ℝ) - 1) / 1000000000) := by
  obtain ⟨t, d, p, proto, sa, x, m1, m2, m3, rfl⟩ := echo_mem hr
  obtain ⟨k, k1, rfl, k3⟩ := payload_carried h0 h hn hone m1 m3
  have hkI : k * I < 2 ^ 63 := by
    rcases Nat.lt_or_ge k count with hlt | hge
    · exact lt_of_le_of_lt (Nat.mul_le_mul_right I hlt.le) hI
    · have : k = 0 := by omega
      subst this
      simp
  obtain ⟨T0, n, rb, e1, e2, e3, e4, e5⟩ := C112_exact h0 h hv hof hpos ha hra hrm k3 m1 m3
  rw [hsv d m2] at e3
  obtain rfl := Option.some.inj e3
  refine ⟨t, k, T0, _, rb, echo_client (by omega) hkI, e4, e1, e2, e5.trans ?_⟩
  have : ((k * I : Nat) : ℝ) ≤ (T0 : ℝ) := by exact_mod_cast e1
  have hle : seconds t - seconds T0 ≤ (((t : Int) - (k * I : Nat) : Int) : ℝ) / 1000000000 := by
    unfold seconds
    push_cast at this ⊢
    rw [← sub_div]
    exact div_le_div_of_nonneg_right (by linarith) (by norm_num)
  have := mul_le_mul_of_nonneg_left hle (by linarith : 0 ≤ K.speed + V)
  linarith

/-! ## The number of packets -/

theorem whole_isDouble {n : Nat} (h : n < 2 ^ 53) : IsDouble n :=
  ⟨n, 0, by rw [abs_of_nonneg (by positivity)]; exact_mod_cast h, by norm_num, by norm_num, by simp⟩

theorem nearest_ge {q x y : ℚ} (h : Nearest q x) (hy : IsDouble y) (hle : y ≤ q) : y ≤ x := by
  by_contra hc
  have h1 := h.2 y hy
  rw [abs_of_nonpos (by linarith), abs_of_nonpos (by linarith)] at h1
  linarith

theorem nearest_le {q x y : ℚ} (h : Nearest q x) (hy : IsDouble y) (hle : q ≤ y) : x ≤ y := by
  by_contra hc
  have h1 := h.2 y hy
  rw [abs_of_nonneg (by linarith), abs_of_nonneg (by linarith)] at h1
  linarith

/-- What is rounded up to a whole number is close to it. -/
theorem nearest_up {q x : ℚ} (h : Nearest q x) {n : Nat} (hn : n < 2 ^ 53) (h1 : (n : ℚ) ≤ x) (h2 : q < n) (h0 : 0 ≤ q) :
    n * (1 - 2 ^ (-53 : Int)) ≤ q := by
  have hn0 : n ≠ 0 := by rintro rfl; simp at h2; linarith
  have hlo := Nat.pow_log_le_self 2 hn0
  have hhi := Nat.lt_pow_succ_log_self (b := 2) (by norm_num) n
  generalize hL : Nat.log 2 n = L at hlo hhi
  have hL52 : L ≤ 52 := by
    by_contra hc
    have : 2 ^ 53 ≤ 2 ^ L := Nat.pow_le_pow_right (by norm_num) (by omega)
    omega
  obtain ⟨j, hj⟩ : ∃ j, L + j = 52 := ⟨52 - L, by omega⟩
  have hjp : (2 : ℚ) ^ (-(j : Int)) = 1 / 2 ^ j := by rw [zpow_neg, zpow_natCast, one_div]
  have h2j : (0 : ℚ) < 2 ^ j := by positivity
  have hy : IsDouble ((n : ℚ) - 1 / 2 ^ j) := by
    refine ⟨(n : Int) * 2 ^ j - 1, -(j : Int), ?_, by omega, by omega, ?_⟩
    · have a1 : n * 2 ^ j < 2 ^ (L + 1) * 2 ^ j := Nat.mul_lt_mul_of_pos_right hhi (by positivity)
      have a2 : 2 ^ (L + 1) * 2 ^ j = 2 ^ 53 := by rw [← pow_add]; congr 1; omega
      have a3 : 1 ≤ n * 2 ^ j := Nat.mul_pos (by omega) (by positivity)
      have b1 : ((n : Int) * 2 ^ j) < 2 ^ 53 := by exact_mod_cast a2 ▸ a1
      have b3 : (1 : Int) ≤ (n : Int) * 2 ^ j := by exact_mod_cast a3
      rw [abs_of_nonneg (by omega)]
      omega
    · rw [hjp]
      push_cast
      field_simp
  have hyq : (n : ℚ) - 1 / 2 ^ j ≤ q := by
    by_contra hc
    have := nearest_le h hy (by linarith)
    have : 0 < 1 / (2 : ℚ) ^ j := by positivity
    linarith
  have hd := h.2 _ hy
  rw [abs_of_nonneg (by linarith), abs_of_nonpos (by linarith)] at hd
  have hw : 1 / (2 : ℚ) ^ j ≤ 2 * (n * 2 ^ (-53 : Int)) := by
    have a : (2 : ℚ) ^ L ≤ n := by exact_mod_cast hlo
    have b : (2 : ℚ) ^ L * 2 ^ j = 2 ^ 52 := by rw [← pow_add, hj]
    rw [div_le_iff₀ h2j]
    have c : (2 : ℚ) ^ L * 2 ^ j ≤ n * 2 ^ j := mul_le_mul_of_nonneg_right a h2j.le
    have e : (2 : ℚ) ^ (-53 : Int) = 1 / 2 ^ 53 := by norm_num
    rw [e]
    have : 2 * (n * (1 / (2 : ℚ) ^ 53)) * 2 ^ j = (n * 2 ^ j) / 2 ^ 52 := by ring
    rw [this, le_div_iff₀ (by norm_num)]
    linarith
  rw [mul_sub, mul_one]
  generalize (n : ℚ) * 2 ^ (-53 : Int) = z at hw ⊢
  generalize 1 / (2 : ℚ) ^ j = y at hw hd
  linarith

theorem count_nearest {D I : ℚ} {n : Nat} (h : maxPackets D I = .count n) :
    I ≠ 0 ∧ n < 2 ^ 32 ∧ ∃ x, Nearest (D / I) x ∧ -1 < x ∧ ⌊x⌋.toNat = n := by
  unfold maxPackets at h
  split at h
  · cases h
  · rename_i hI
    split at h
    · cases h
    · rename_i x hx
      split at h
      · rename_i hr
        split at h
        · rename_i hlt
          injection h with h
          exact ⟨hI, h ▸ hlt, x, toDouble_nearest hx, hr.1, h⟩
        · cases h
      · cases h

/-- **C114**: the number of packets is the quotient of duration and interval with the fraction cut off, except that a quotient too close below a
whole number counts as that number; the last packet is due before the end in any case. -/
theorem C114_count {D I : ℚ} (hD : 0 ≤ D) (hI : 0 < I) {n : Nat} (h : maxPackets D I = .count n) :
    ((n : ℚ) ≤ D / I ∧ D / I < n + 1 ∨ D / I < n ∧ n * (1 - 2 ^ (-53 : Int)) ≤ D / I) ∧ ∀ k : Nat, k < n → k * I < D := by
  obtain ⟨_, hn, x, hx, _, hfl⟩ := count_nearest h
  have hq : 0 ≤ D / I := by positivity
  have hx0 : 0 ≤ x := nearest_ge hx isDouble_zero hq
  have hfx : ⌊x⌋ = (n : Int) := by
    have := Int.floor_nonneg.mpr hx0
    omega
  have f1 : (n : ℚ) ≤ x := by have := Int.floor_le x; rw [hfx] at this; exact_mod_cast this
  have f2 : x < n + 1 := by have := Int.lt_floor_add_one x; rw [hfx] at this; exact_mod_cast this
  have hup : D / I < n + 1 := by
    by_contra hc
    have := nearest_ge hx (whole_isDouble (n := n + 1) (by omega)) (by push_cast; linarith)
    push_cast at this
    linarith
  refine ⟨?_, fun k hk => ?_⟩
  · rcases le_or_gt (n : ℚ) (D / I) with hle | hlt
    · exact Or.inl ⟨hle, hup⟩
    · exact Or.inr ⟨hlt, nearest_up hx (by omega) f1 hlt hq⟩
  · by_contra hc
    have hle : D / I ≤ k := by rw [div_le_iff₀ hI]; linarith
    have h1 := nearest_le hx (whole_isDouble (n := k) (by omega)) hle
    have : (k : ℚ) + 1 ≤ n := by exact_mod_cast hk
    linarith

/-- C114: whole numbers of seconds are divided exactly. -/
theorem C114_count_whole_partial {D I : Nat} (hI : 0 < I) (hlt : D / I < 2 ^ 32) (hs : D + I < 2 ^ 53) :
    maxPackets D I = .count (D / I) := by
  have hI' : (0 : ℚ) < I := by exact_mod_cast hI
  obtain ⟨m, hm⟩ : ∃ m, m = D / I := ⟨_, rfl⟩
  rw [← hm] at hlt ⊢
  have d1 : m * I ≤ D := by rw [hm]; exact Nat.div_mul_le_self D I
  have d2 : D + 1 ≤ (m + 1) * I := by
    have := Nat.lt_mul_of_div_lt (show D / I < m + 1 by omega) hI
    omega
  have q1 : (m : ℚ) ≤ D / I := by rw [le_div_iff₀ hI']; exact_mod_cast d1
  have q2 : ((D : ℚ) + 1) / I ≤ m + 1 := by rw [div_le_iff₀ hI']; exact_mod_cast d2
  have q3 : (D : ℚ) / I < m + 1 := lt_of_lt_of_le (by rw [add_div]; have : 0 < 1 / (I : ℚ) := by positivity
                                                      linarith) q2
  have hq : (0 : ℚ) ≤ D / I := by positivity
  have m32 : (m : ℚ) < 2 ^ 32 := by exact_mod_cast hlt
  obtain ⟨x, hx⟩ := convertible.mp (show ¬ TooLarge ((D : ℚ) / I) by
    unfold TooLarge
    rw [abs_of_nonneg hq, not_le]
    refine lt_of_lt_of_le (b := 2 ^ 33) (by linarith) (by decide +kernel))
  have hx' := toDouble_nearest hx
  have g1 := nearest_ge hx' (whole_isDouble (n := m) (by omega)) q1
  have g2 : x ≤ m + 1 := by simpa using nearest_le hx' (whole_isDouble (n := m + 1) (by omega)) (by push_cast; exact q3.le)
  have g3 : x < m + 1 := by
    by_contra hc
    have := nearest_up hx' (n := m + 1) (by omega) (by push_cast; linarith) (by push_cast; exact q3) hq
    push_cast at this
    have e : (2 : ℚ) ^ (-53 : Int) = 1 / 2 ^ 53 := by norm_num
    rw [e] at this
    rw [add_div] at q2
    have h1 : 1 / (I : ℚ) ≤ ((m : ℚ) + 1) / 2 ^ 53 := by
      have : ((m : ℚ) + 1) / 2 ^ 53 = (m + 1) * (1 / 2 ^ 53) := by ring
      rw [this]
      linarith
    rw [div_le_div_iff₀ hI' (by norm_num)] at h1
    have : ((m : ℚ) + 1) * I ≤ D + I := by
      have : ((m * I : Nat) : ℚ) ≤ D := by exact_mod_cast d1
      push_cast at this
      linarith
    have : ((D + I : Nat) : ℚ) < 2 ^ 53 := by exact_mod_cast hs
    push_cast at this
    linarith
  have hfx : ⌊x⌋ = (m : Int) := by
    rw [Int.floor_eq_iff]
    exact ⟨by exact_mod_cast g1, by exact_mod_cast g3⟩
  have m0 : (0 : ℚ) ≤ m := by positivity
  rw [maxPackets, if_neg hI'.ne', hx]
  simp only [hfx, Int.toNat_natCast]
  rw [if_pos ⟨by linarith, by linarith⟩, if_pos hlt]

/-- **The number of packets is not the quotient of the numbers given**: 0.3 seconds at intervals of 0.1 seconds are two packets, and
0.9 seconds are nine although the quotient of the two `double`s is less than nine. -/
theorem C114_count_short : ∃ d3 d9 i, toDouble 0.3 = some d3 ∧ toDouble 0.9 = some d9 ∧ toDouble 0.1 = some i ∧ maxPackets d3 i = .count 2 ∧
    d9 / i < 9 ∧ maxPackets d9 i = .count 9 := by
  refine ⟨5404319552844595 / 2 ^ 54, 8106479329266893 / 2 ^ 53, 3602879701896397 / 2 ^ 55, ?_⟩
  decide +kernel

/-- Intervals of zero are undefined behaviour; intervals of a nanosecond stop the program. -/
example : maxPackets 100 0 = .undefined ∧ maxPackets 100 (1 / 2 ^ 30) = .fatal ∧ maxPackets 100 1 = .count 100 ∧ maxPackets 100 0.75 = .count 133 := by
  decide +kernel

/-- **C114**: the program without options prints delays of at least 28 milliseconds. -/
theorem C114_default {isl : Bool} {junk : ℝ} {s : Sys} (h0 : Initial s) {X : ExampleNet}
    (h : exampleMain junk (defaultArgs isl) s = .ok X) {K : Sky} (hK : SkyOf (defaultArgs isl) X K)
    (hsp : K.speed = 299792458) (hof : ∀ x, 0 ≤ x → x * 1000000000 ≤ K.ofSeconds x + 1) {E : Env}
    {ops : List Op} (ht : ∀ op ∈ ops, PlainTraffic op) {s1 : Sys} (hx : exec (K.env E) X.build.sys ops = .ok s1)
    {udp : Bytes → Option Bytes} (hone : OneSource (K.env E) X.build.sys udp (632 + 400) (udpClient 1000000000 100 0 0) ops)
    {r : Outcome EchoLine} (hr : r ∈ echoLines udp (fun d => d == 632 + 401) s1.log) :
    ∃ (t k : Nat) (δ : Int), r = .ok ⟨t, k, δ⟩ ∧ k < 100 ∧ δ = t - k * 1000000000 ∧ 28000000 ≤ δ := by
  obtain ⟨t, d, p, proto, sa, x, m1, m2, m3, rfl⟩ := echo_mem hr
  obtain rfl : d = 632 + 401 := by simpa using m2
  by_cases hk : ∃ k, k < max 100 1 ∧ x = clientPacket k (k * 1000000000)
  · obtain ⟨k, k1, rfl⟩ := hk
    have hc := one_carried hone (by norm_num) k1
    have := C112_default_users h0 h hK hsp hof ht hx (Or.inl ⟨rfl, rfl⟩) hc m1 m3
    refine ⟨t, k, _, echo_client (by omega) (by omega), by omega, by push_cast; ring, ?_⟩
    have : k * 1000000000 + 28000000 ≤ t := this
    omega
  · exfalso
    have := C112_default_users h0 h hK hsp hof ht hx (Or.inl ⟨rfl, rfl⟩) (one_carried_not hone hk (t + 1)) m1 m3
    have : t + 1 + 28000000 ≤ t := this
    omega

/-- The hypotheses are met: a packet of the client that is forwarded by the satellites gives a line. -/
example : ∃ (X : ExampleNet) (K : Sky) (s1 : Sys) (ops : List Op) (udp : Bytes → Option Bytes) (r : Outcome EchoLine),
    exampleMain 0 (defaultArgs true) Demo.sys = .ok X ∧ SkyOf (defaultArgs true) X K ∧ K.speed = 299792458 ∧
    (∀ x, 0 ≤ x → x * 1000000000 ≤ K.ofSeconds x + 1) ∧ (∀ op ∈ ops, PlainTraffic op) ∧ exec (K.env Demo.env) X.build.sys ops = .ok s1 ∧
    OneSource (K.env Demo.env) X.build.sys udp (632 + 400) (udpClient 1000000000 100 0 0) ops ∧
    r ∈ echoLines udp (fun d => d == 632 + 401) s1.log := by
  have hlen : (clientPacket 0 0).length = 1024 := by
    rw [clientPacket, List.length_append, List.length_append, beBytes_length, beBytes_length, List.length_replicate]
  obtain ⟨X, K, s1, ops, e1, e2, e3, e4, e5, e6, e7, t, sa, e8, _⟩ := users_run 0 (q := clientPacket 0 0) (by omega)
  refine ⟨X, K, s1, ops, fun p => if p = clientPacket 0 0 then some p else none, _, e1, e2, e3, e4, e5, e6, ?_,
    List.mem_filterMap.mpr ⟨_, e8, by simp; rfl⟩⟩
  intro o1 src q dest pr o2 s2 he hs
  obtain ⟨u1, u2⟩ := e7 o1 src q dest pr o2 s2 he hs
  refine ⟨u1, fun x hx => ?_⟩
  by_cases hq : q = clientPacket 0 0
  · simp only [if_pos hq, Option.some.injEq] at hx
    subst hx
    rcases u2 hq with ⟨v1, v2⟩ | ⟨t, d, p, proto, sa, w1, w2, w3⟩
    · refine Or.inl ⟨v1, 0, ?_, Nat.zero_le _⟩
      rw [C114_client, List.mem_map]
      exact ⟨0, by simp, by rw [hq]⟩
    · exact Or.inr ⟨t, d, p, proto, sa, w1, (if_pos w2).trans (by rw [w2, hq]), w3⟩
  · simp only [if_neg hq] at hx
    cases hx

/-- The hypotheses of `C114_lines` and `C114_distance` are met by the run of C112 in which one satellite sends to the one ahead, if what it
sends is the first packet of a client. -/
example : ∃ s udp r, exec ((planeSky id).env { Demo.env with txTime := fun _ n => 1100 * n }) Demo.sys aheadRun = .ok s ∧
    OneSource ((planeSky id).env { Demo.env with txTime := fun _ n => 1100 * n }) Demo.sys udp 1 (udpClient 1000 3 0 0) aheadRun ∧
    (∀ t c f src dst tx del, (t, Ev.txrx c f src dst tx del) ∈ s.log → ∀ n, (Demo.sys.dev dst).node = some n →
      @LT.lt Nat _ n 2 ∧ ∃ r, (planeSky id).pos n = some r ∧ SlowerThan 9700 r) ∧
    r ∈ echoLines udp (fun d => d == 0) s.log := by
  obtain ⟨s, hs, hin, hd⟩ := ahead_ok
  refine ⟨s, fun _ => some (clientPacket 1 1000), _, by rw [planeSky_env]; exact hs, ?_, ?_, List.mem_filterMap.mpr ⟨_, hin, by simp; rfl⟩⟩
  · rw [planeSky_env]
    intro o1 src q dest pr o2 s1 he hx
    obtain ⟨u1, u2⟩ := ahead_carried o1 src q dest pr o2 s1 he hx
    refine ⟨u1, fun x e => ?_⟩
    rcases u2 trivial with ⟨v1, v2⟩ | ⟨t, d, p, proto, sa, w1, w2, w3⟩
    · refine Or.inl ⟨v1, 1000, ?_, v2⟩
      rw [C114_client, List.mem_map]
      exact ⟨1, by simp, by rw [← Option.some.inj e]⟩
    · exact Or.inr ⟨t, d, p, proto, sa, w1, e, w3⟩
  · intro t c f src dst tx del hm n hn
    have := hd t c f src dst tx del hm
    subst this
    injection hn with hn
    subst hn
    exact ⟨by decide, _, rfl, plane_slow _⟩

end Verif
