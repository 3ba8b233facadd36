import Verif.Spec.IpTrace
import Verif.Lemmas.TraceFile2
import Verif.Props.AddressPlan
/-!
# The IP lines of the delay tracing program: C125
-/

namespace Verif
namespace IpTraceProofs
open Spec

theorem split_at {x : Char} {a a' b b' : List Char} (ha : x ∉ a) (ha' : x ∉ a') (h : a ++ x :: b = a' ++ x :: b') : a = a' ∧ b = b' := by
  induction a generalizing a' with
  | nil =>
    cases a' with
    | nil => simpa using h
    | cons c a' =>
      simp at h
      exact absurd (List.mem_cons.mpr (Or.inl h.1)) ha'
  | cons c a ih =>
    cases a' with
    | nil => simp at h; exact absurd (by simp [h.1]) ha
    | cons c' a' =>
      simp only [List.cons_append, List.cons.injEq] at h
      obtain ⟨rfl, h⟩ := h
      obtain ⟨rfl, rfl⟩ := ih (fun hm => ha (by simp [hm])) (fun hm => ha' (by simp [hm])) h
      exact ⟨rfl, rfl⟩

theorem numeral_showNat (n : Nat) : Numeral (showNat n) n := showNat_spec n

theorem numeral_clean {l : List Char} {n : Nat} (h : Numeral l n) : '.' ∉ l ∧ '/' ∉ l ∧ ':' ∉ l := by
  refine ⟨fun hm => ?_, fun hm => ?_, fun hm => ?_⟩
  · have := h.1 _ hm
    revert this; simp [IsDigit]
  · have := h.1 _ hm
    revert this; simp [IsDigit]
  · have := h.1 _ hm
    revert this; simp [IsDigit]

theorem numeral_eq {l : List Char} {n m : Nat} (h : Numeral l n) (h' : Numeral l m) : n = m := h.2.2.symm.trans h'.2.2

theorem dotted_showIp {ip : Nat} (h : ip < 2 ^ 32) : DottedText (showIp ip) ip := by
  refine ⟨_, _, _, _, _, _, _, _, numeral_showNat (ip / 2 ^ 24 % 2 ^ 8), numeral_showNat (ip / 2 ^ 16 % 2 ^ 8), numeral_showNat (ip / 2 ^ 8 % 2 ^ 8),
    numeral_showNat (ip % 2 ^ 8), by omega, by omega, by omega, by omega, rfl, ?_⟩
  show ip = _ * 256 ^ 3 + _ * 256 ^ 2 + _ * 256 + _
  omega

theorem dottedText_clean {l : List Char} {ip : Nat} (h : DottedText l ip) : ':' ∉ l := by
  obtain ⟨la, lb, lc, ld, a, b, c, d, h1, h2, h3, h4, _, _, _, _, rfl, _⟩ := h
  simp [(numeral_clean h1).2.2, (numeral_clean h2).2.2, (numeral_clean h3).2.2, (numeral_clean h4).2.2]

theorem dottedText_eq {l : List Char} {ip jp : Nat} (h : DottedText l ip) (h' : DottedText l jp) : ip = jp := by
  obtain ⟨la, lb, lc, ld, a, b, c, d, h1, h2, h3, h4, _, _, _, _, rfl, rfl⟩ := h
  obtain ⟨la', lb', lc', ld', a', b', c', d', h1', h2', h3', h4', _, _, _, _, he, rfl⟩ := h'
  obtain ⟨k1, he⟩ := split_at (numeral_clean h1).1 (numeral_clean h1').1 he
  obtain ⟨k2, he⟩ := split_at (numeral_clean h2).1 (numeral_clean h2').1 he
  obtain ⟨k3, k4⟩ := split_at (numeral_clean h3).1 (numeral_clean h3').1 he
  subst k1 k2 k3 k4
  rw [numeral_eq h1 h1', numeral_eq h2 h2', numeral_eq h3 h3', numeral_eq h4 h4']

theorem reason_eq {name : String} {r r' : DropReason} (h : (name, r) ∈ reasonNames) (h' : (name, r') ∈ reasonNames) : r = r' := by
  simp only [reasonNames, List.mem_cons, Prod.mk.injEq, List.not_mem_nil, or_false] at h h'
  rcases h with ⟨rfl, rfl⟩ | ⟨rfl, rfl⟩ | ⟨rfl, rfl⟩ | ⟨rfl, rfl⟩ | ⟨rfl, rfl⟩ | ⟨rfl, rfl⟩ | ⟨rfl, rfl⟩ <;> simp at h' <;> exact h'.symm

theorem told_clean {e : IpEv} {s : String} {c : IpCall} {rest : List Char} (h : Told e s c rest) : ':' ∉ s.toList := by
  cases h <;> decide

theorem tells_line {now : Nat} {source : String} {c : IpCall} {rest : List Char} {e : IpEv} (ht : Told e source c rest)
    (hs : c.src < 2 ^ 32) (hd : c.dst < 2 ^ 32) : Tells (ipLine now source c ++ rest) now e := by
  refine ⟨source, c, rest, _, _, _, _, _, _, ht, numeral_showNat now, numeral_showNat c.node, numeral_showNat c.uid, numeral_showNat c.iface,
    dotted_showIp hs, dotted_showIp hd, ?_⟩
  have e1 : ".0ns:/NodeList/".toList = ".0ns".toList ++ ':' :: "/NodeList/".toList := by decide
  have e2 : "+".toList = ['+'] := by decide
  have e3 : ":".toList = [':'] := by decide
  rw [e1, e2, e3]
  unfold ipLine showTime ipContext
  simp only [List.append_assoc, List.cons_append, List.nil_append]

theorem name_of (r : DropReason) : (dropText r, r) ∈ reasonNames := by
  cases r <;> decide

end IpTraceProofs

open Spec IpTraceProofs

open Classical in
/-- **C125**: with `traceFwd` the program prints one line for each report of a packet forwarded to `remote` and for each report of a dropped packet, in the order of the
reports and no other line; the line tells the time, node, source, packet, interface, both addresses and the reason. -/
theorem C125_lines (remote : Nat) (reports : List (Nat × IpEv))
    (h32 : ∀ e ∈ reports, (ipData e.2).src < 2 ^ 32 ∧ (ipData e.2).dst < 2 ^ 32) :
    List.Forall₂ (fun line e => Tells line e.1 e.2) (ipTrace remote true reports) (reports.filter fun e => Wanted remote e.2) := by
  induction reports with
  | nil => exact List.Forall₂.nil
  | cons e more ih =>
    have ih := ih fun x hx => h32 x (List.mem_cons_of_mem _ hx)
    obtain ⟨h1, h2⟩ := h32 e List.mem_cons_self
    obtain ⟨t, e⟩ := e
    have hc : ipTrace remote true ((t, e) :: more) = ipSinks remote true t e ++ ipTrace remote true more := rfl
    rw [hc]
    have keep : Wanted remote e → ((t, e) :: more).filter (fun e => decide (Wanted remote e.2)) = (t, e) :: more.filter fun e => decide (Wanted remote e.2) :=
      fun k => List.filter_cons_of_pos (p := fun e : Nat × IpEv => decide (Wanted remote e.2)) (a := (t, e)) (decide_eq_true k)
    have skip : ¬ Wanted remote e → ((t, e) :: more).filter (fun e => decide (Wanted remote e.2)) = more.filter fun e => decide (Wanted remote e.2) :=
      fun k => List.filter_cons_of_neg (p := fun e : Nat × IpEv => decide (Wanted remote e.2)) (a := (t, e)) fun k' => k (of_decide_eq_true k')
    have line : ∀ (c : IpCall) (s : String), c.src < 2 ^ 32 → c.dst < 2 ^ 32 → Told e s c [] → Tells (ipLine t s c) t e := by
      intro c s k1 k2 k3
      have := tells_line (now := t) k3 k1 k2
      rwa [List.append_nil] at this
    cases e with
    | unicast c =>
      by_cases hd : c.dst = remote
      · have hs : ipSinks remote true t (.unicast c) = [ipLine t "UnicastForward" c] := by simp [ipSinks, traceIpForward, hd]
        rw [hs, keep hd]
        exact List.Forall₂.cons (line c _ h1 h2 (.unicast c)) ih
      · have hs : ipSinks remote true t (.unicast c) = [] := by simp [ipSinks, traceIpForward, hd]
        rw [hs, skip hd]
        exact ih
    | multicast c =>
      by_cases hd : c.dst = remote
      · have hs : ipSinks remote true t (.multicast c) = [ipLine t "MulticastForward" c] := by simp [ipSinks, traceIpForward, hd]
        rw [hs, keep hd]
        exact List.Forall₂.cons (line c _ h1 h2 (.multicast c)) ih
      · have hs : ipSinks remote true t (.multicast c) = [] := by simp [ipSinks, traceIpForward, hd]
        rw [hs, skip hd]
        exact ih
    | drop c r =>
      have hs : ipSinks remote true t (.drop c r) = [ipLine t "Drop" c ++ ':' :: (dropText r).toList] := by simp [ipSinks, traceIpDrop]
      rw [hs, keep trivial]
      exact List.Forall₂.cons (tells_line (.drop c _ r (name_of r)) h1 h2) ih
    | other c =>
      have hs : ipSinks remote true t (.other c) = [] := rfl
      rw [hs, skip (fun k => k)]
      exact ih

/-- **C125**: a line tells one report only: whoever knows the line knows the time and the report. -/
theorem C125_unambiguous {line : List Char} {t t' : Nat} {e e' : IpEv} (h : Tells line t e) (h' : Tells line t' e') : t = t' ∧ e = e' := by
  obtain ⟨s, c, rest, lt, ln, lu, li, ls, ld, h0, h1, h2, h3, h4, h5, h6, he⟩ := h
  obtain ⟨s', c', rest', lt', ln', lu', li', ls', ld', h0', h1', h2', h3', h4', h5', h6', he'⟩ := h'
  rw [he] at he'
  have e1 : ".0ns:/NodeList/".toList = '.' :: "0ns:/NodeList/".toList := by decide
  have e2 : "+".toList = ['+'] := by decide
  have e3 : ":".toList = [':'] := by decide
  have e4 : "/$ns3::Ipv4L3Protocol/".toList = '/' :: "$ns3::Ipv4L3Protocol/".toList := by decide
  rw [e1, e2, e3, e4] at he'
  simp only [List.append_assoc, List.cons_append, List.nil_append, List.cons.injEq, true_and] at he'
  obtain ⟨k1, he'⟩ := split_at (numeral_clean h1).1 (numeral_clean h1').1 he'
  have he' := List.append_cancel_left he'
  obtain ⟨k2, he'⟩ := split_at (numeral_clean h2).2.1 (numeral_clean h2').2.1 he'
  have he' := List.append_cancel_left he'
  obtain ⟨hs, he'⟩ := split_at (told_clean h0) (told_clean h0') he'
  obtain ⟨k3, he'⟩ := split_at (numeral_clean h3).2.2 (numeral_clean h3').2.2 he'
  obtain ⟨k4, he'⟩ := split_at (numeral_clean h4).2.2 (numeral_clean h4').2.2 he'
  obtain ⟨k5, hend⟩ := split_at (dottedText_clean h5) (dottedText_clean h5') he'
  subst k1 k2 k3 k4 k5
  have data : ld = ld' → c = c' := by
    rintro rfl
    have k2 := numeral_eq h2 h2'
    have k3 := numeral_eq h3 h3'
    have k4 := numeral_eq h4 h4'
    have k5 := dottedText_eq h5 h5'
    have k6 := dottedText_eq h6 h6'
    cases c; cases c'
    simp only at k2 k3 k4 k5 k6
    simp [k2, k3, k4, k5, k6]
  refine ⟨numeral_eq h1 h1', ?_⟩
  have hs : s = s' := String.toList_inj.mp hs
  cases h0 with
  | unicast c =>
    cases h0' with
    | unicast c' => rw [data (by simpa using hend)]
    | multicast c' => simp at hs
    | drop c' name r hr => simp at hs
  | multicast c =>
    cases h0' with
    | unicast c' => simp at hs
    | multicast c' => rw [data (by simpa using hend)]
    | drop c' name r hr => simp at hs
  | drop c name r hr =>
    cases h0' with
    | unicast c' => simp at hs
    | multicast c' => simp at hs
    | drop c' name' r' hr' =>
      obtain ⟨k, hn⟩ := split_at (dottedText_clean h6) (dottedText_clean h6') hend
      obtain rfl := data k
      have hn : name = name' := String.toList_inj.mp hn
      subst hn
      rw [reason_eq hr hr']

open Classical in
/-- **C125**: one reader, which needs to know neither the run nor `remote`, gets from the lines of every run the times and reports that were wanted. -/
theorem C125_read : ∃ read : List Char → Option (Nat × IpEv), ∀ (remote : Nat) (reports : List (Nat × IpEv)),
    (∀ e ∈ reports, (ipData e.2).src < 2 ^ 32 ∧ (ipData e.2).dst < 2 ^ 32) →
    (ipTrace remote true reports).map read = (reports.filter fun e => Wanted remote e.2).map some := by
  refine ⟨fun line => if h : ∃ e : Nat × IpEv, Tells line e.1 e.2 then some h.choose else none, fun remote reports h32 => ?_⟩
  have key := C125_lines remote reports h32
  generalize ipTrace remote true reports = lines at key
  generalize reports.filter _ = told at key
  induction key with
  | nil => rfl
  | @cons line e _ _ h _ ih =>
    have hx : ∃ e : Nat × IpEv, Tells line e.1 e.2 := ⟨e, h⟩
    obtain ⟨k1, k2⟩ := C125_unambiguous hx.choose_spec h
    rw [List.map_cons, List.map_cons, ih, dif_pos hx]
    exact congrArg (fun x => some x :: _) (Prod.ext k1 k2)

open Classical in
/-- **C125** in the example network: the lines about forwarded packets are those of packets on the way to the device of the second user, and no line is about a
packet forwarded to a group. -/
theorem C125_second_user {junk : ℝ} {a : ExampleArgs} {p : Preset} (hp : p ∈ presets) (hn : a.constellation = p.name)
    (ho : ∀ o ∈ a.orbits, Installable o) (hm : (places a.orbits).length + a.lonGws * a.latGws % 2 ^ 32 + 2 ≤ 65534)
    {s : Sys} {X : ExampleNet} (h : exampleMain junk a s = .ok X) :
    ∃ P remote, exampleAddresses X a.islEnabled = some P ∧ P.remote ((places a.orbits).length + a.lonGws * a.latGws % 2 ^ 32 + 1) = some remote ∧
      ∀ reports, IpReports reports →
        List.Forall₂ (fun line e => Tells line e.1 e.2) (ipTrace remote true reports)
          (reports.filter fun e => (∃ c, e.2 = .unicast c ∧ Owns P ((places a.orbits).length + a.lonGws * a.latGws % 2 ^ 32 + 1) c.dst) ∨ ∃ c r, e.2 = .drop c r) := by
  obtain ⟨P, q1, q2, q3⟩ := C116_plan hp hn ho hm h
  obtain ⟨P', ip, r1, r2, r3⟩ := C116_destination hp hn ho hm h
  rw [q1] at r1
  obtain rfl := Option.some.inj r1
  rw [q3] at r2
  obtain rfl := Option.some.inj r2
  have B := built_of hp hn ho (by unfold satCount; omega) h
  obtain ⟨g, _, hgl, hgr⟩ := B.ground
  have hG : X.ground.length = a.lonGws * a.latGws % 2 ^ 32 + 2 := by rw [hgr]; simp [hgl]
  refine ⟨P, _, q1, q3, fun reports hr => ?_⟩
  have key := C125_lines (dotted 10 1 0 0 + ((places a.orbits).length + a.lonGws * a.latGws % 2 ^ 32 + 2)) reports fun e he => ⟨(hr e he).1, (hr e he).2.1⟩
  have d1 : dotted 10 1 0 0 = 167837696 := by decide
  have d2 : dotted 10 2 0 0 = 167903232 := by decide
  have d3 : dotted 224 0 0 0 = 3758096384 := by decide
  have only : ∀ ip, Owns P ((places a.orbits).length + a.lonGws * a.latGws % 2 ^ 32 + 1) ip ↔
      ip = dotted 10 1 0 0 + ((places a.orbits).length + a.lonGws * a.latGws % 2 ^ 32 + 2) := by
    intro ip
    constructor
    · intro ho
      rw [q2] at ho
      rcases ho with ⟨k, k1, k2, k3⟩ | ⟨_, i, i1, i2, i3⟩
      · have k2 : (places a.orbits).length + a.lonGws * a.latGws % 2 ^ 32 + 1 = k := k2
        rw [k3, ← k2]
      · have i2 : (places a.orbits).length + a.lonGws * a.latGws % 2 ^ 32 + 1 = (places a.orbits).length + X.ground.length + i := i2
        omega
    · rintro rfl
      exact (r3 _).mpr rfl
  convert key using 1
  refine List.filter_congr fun e he => ?_
  rw [decide_eq_decide]
  obtain ⟨t, e⟩ := e
  have hmc := (hr _ he).2.2
  cases e with
  | unicast c =>
    have o := only c.dst
    constructor
    · rintro (⟨c', hc, hw⟩ | ⟨c', r, hc⟩)
      · cases hc; exact o.mp hw
      · cases hc
    · exact fun hw => Or.inl ⟨c, rfl, o.mpr hw⟩
  | multicast c =>
    have hg : dotted 224 0 0 0 ≤ c.dst := hmc c rfl
    simp only [Wanted, reduceCtorEq, false_and, exists_false, or_self, false_iff]
    intro hd
    rw [hd, d1, d3] at hg
    have hg : (3758096384 : Nat) ≤ 167837696 + ((places a.orbits).length + a.lonGws * a.latGws % 2 ^ 32 + 2) := hg
    omega
  | drop c r => simp [Wanted]
  | other c => simp [Wanted]

/-- **C125**: without `traceFwd` no such line is printed. -/
theorem C125_off (remote : Nat) (reports : List (Nat × IpEv)) : ipTrace remote false reports = [] := by
  unfold ipTrace
  rw [List.flatMap_eq_nil_iff]
  rintro ⟨t, e⟩ _
  cases e <;> rfl

/-- **C125**: the colons of the context come on top of those between the fields: the lines of forwarded packets have seven, those of dropped packets eight, so that
whoever cuts the lines at the colons finds the id of the packet in the fifth piece and not in the third. -/
theorem C125_colons {line : List Char} {t : Nat} {e : IpEv} (h : Tells line t e) :
    (∃ a b, Numeral b (ipData e).uid ∧ (∃ r, line = a ++ ':' :: (b ++ ':' :: r)) ∧ a.count ':' = 3) ∧
      (line.count ':' = 7 ∨ (line.count ':' = 8 ∧ ∃ c r, e = .drop c r)) := by
  obtain ⟨s, c, rest, lt, ln, lu, li, ls, ld, h0, h1, h2, h3, h4, h5, h6, rfl⟩ := h
  have z1 := List.count_eq_zero.mpr (numeral_clean h1).2.2
  have z2 := List.count_eq_zero.mpr (numeral_clean h2).2.2
  have z3 := List.count_eq_zero.mpr (numeral_clean h3).2.2
  have z4 := List.count_eq_zero.mpr (numeral_clean h4).2.2
  have z5 := List.count_eq_zero.mpr (dottedText_clean h5)
  have z6 := List.count_eq_zero.mpr (dottedText_clean h6)
  have z7 := List.count_eq_zero.mpr (told_clean h0)
  have c1 : "+".toList.count ':' = 0 := by decide
  have c2 : ".0ns:/NodeList/".toList.count ':' = 1 := by decide
  have c3 : "/$ns3::Ipv4L3Protocol/".toList.count ':' = 2 := by decide
  have c4 : ":".toList.count ':' = 1 := by decide
  have e3 : ":".toList = [':'] := by decide
  have hu : (ipData e).uid = c.uid := by cases h0 <;> rfl
  refine ⟨⟨"+".toList ++ lt ++ ".0ns:/NodeList/".toList ++ ln ++ "/$ns3::Ipv4L3Protocol/".toList ++ s.toList, lu, by rw [hu]; exact h3,
    ⟨li ++ ":".toList ++ ls ++ ":".toList ++ ld ++ rest, by rw [e3]; simp only [List.append_assoc, List.cons_append, List.nil_append]⟩, ?_⟩, ?_⟩
  · simp only [List.count_append]
    omega
  · simp only [List.count_append]
    cases h0 with
    | unicast c => left; simp only [List.count_nil]; omega
    | multicast c => left; simp only [List.count_nil]; omega
    | drop c name r hr =>
      right
      refine ⟨?_, _, _, rfl⟩
      have z8 : (':' :: name.toList).count ':' = 1 := by
        simp only [reasonNames, List.mem_cons, Prod.mk.injEq, List.not_mem_nil, or_false] at hr
        rcases hr with ⟨rfl, _⟩ | ⟨rfl, _⟩ | ⟨rfl, _⟩ | ⟨rfl, _⟩ | ⟨rfl, _⟩ | ⟨rfl, _⟩ | ⟨rfl, _⟩ <;> decide
      omega

/-- Reports as in a run of the program: a packet for the second user forwarded and dropped, one for somebody else forwarded, one to a group. -/
def someReports : List (Nat × IpEv) :=
  [(5, .unicast ⟨3, 17, 1, dotted 10 1 4 9, dotted 10 1 4 10⟩), (6, .unicast ⟨4, 18, 1, dotted 10 1 4 10, dotted 10 1 4 9⟩),
   (7, .multicast ⟨3, 19, 1, dotted 10 1 4 9, dotted 224 0 0 9⟩), (9, .drop ⟨4, 17, 1, dotted 10 1 4 9, dotted 10 1 4 10⟩ .noRoute),
   (9, .other ⟨4, 20, 1, dotted 10 1 4 9, dotted 10 1 4 10⟩)]

/-- They are as `C125_lines` and `C125_second_user` ask for. -/
example : IpReports someReports := by
  intro e he
  simp only [someReports, List.mem_cons, List.not_mem_nil, or_false] at he
  rcases he with rfl | rfl | rfl | rfl | rfl <;> refine ⟨by decide, by decide, fun c hc => ?_⟩ <;> cases hc
  decide

/-- Two of them are printed, with different lines. -/
example : ipTrace (dotted 10 1 4 10) true someReports =
    ["+5.0ns:/NodeList/3/$ns3::Ipv4L3Protocol/UnicastForward:17:1:10.1.4.9:10.1.4.10".toList,
     "+9.0ns:/NodeList/4/$ns3::Ipv4L3Protocol/Drop:17:1:10.1.4.9:10.1.4.10:No route".toList] := by
  decide +kernel

end Verif
