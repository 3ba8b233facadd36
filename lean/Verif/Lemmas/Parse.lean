import Mathlib.Tactic.Linarith
import Mathlib.Tactic.FieldSimp
import Verif.Model.Parse
import Verif.Spec.Parse
/-!
# The scanner reads exactly the grammar
-/

namespace Verif
open Spec

theorem isDigit_iff (c : Char) : c.isDigit = true ↔ IsDigit c := by
  unfold Char.isDigit IsDigit Char.toNat
  simp only [Bool.and_eq_true, decide_eq_true_eq, ge_iff_le, UInt32.le_iff_toNat_le]
  rfl

theorem isBlank_iff (c : Char) : isBlank c = true ↔ IsBlank c := by
  simp [isBlank, IsBlank, or_assoc]

theorem natVal_append (l : List Char) (c : Char) : natVal (l ++ [c]) = natVal l * 10 + digitVal c := by
  simp [natVal]

theorem value_append (l m : List Char) : value (l ++ m) = value l * 10 ^ m.length + value m := by
  induction l with
  | nil => simp [value]
  | cons c l ih =>
    simp only [List.cons_append, value, ih, List.length_append]
    rw [Nat.add_mul, Nat.mul_assoc, ← Nat.pow_add, Nat.add_assoc]

theorem natVal_eq (l : List Char) : natVal l = value l := by
  induction l using List.reverseRecOn with
  | nil => rfl
  | append_singleton l c ih =>
    rw [natVal_append, value_append, ih]
    simp [value, digitVal]

/-- Splitting off a maximal run. -/
theorem span_unique {p : Char → Bool} {l r : List Char} (hl : ∀ c ∈ l, p c = true) (hr : ∀ c cs, r = c :: cs → p c = false) :
    (l ++ r).takeWhile p = l ∧ (l ++ r).dropWhile p = r := by
  induction l with
  | nil =>
    cases r with
    | nil => simp
    | cons c cs => simp [hr c cs rfl]
  | cons c l ih =>
    have h1 := hl c (by simp)
    have h2 := ih (fun c hc => hl c (by simp [hc]))
    simp [h1, h2.1, h2.2]

theorem span_split (p : Char → Bool) (l : List Char) :
    l = l.takeWhile p ++ l.dropWhile p ∧ (∀ c ∈ l.takeWhile p, p c = true) ∧
    (∀ c cs, l.dropWhile p = c :: cs → p c = false) := by
  refine ⟨List.takeWhile_append_dropWhile.symm, ?_, ?_⟩
  · intro c hc
    induction l with
    | nil => simp at hc
    | cons d l ih =>
      by_cases hd : p d = true
      · rw [List.takeWhile_cons, if_pos hd, List.mem_cons] at hc
        rcases hc with rfl | hc
        · exact hd
        · exact ih hc
      · rw [List.takeWhile_cons, if_neg hd] at hc
        simp at hc
  intro c cs h
  induction l with
  | nil => simp at h
  | cons d l ih =>
    by_cases hd : p d = true
    · simp only [List.dropWhile_cons, hd, if_true] at h
      exact ih h
    · simp only [List.dropWhile_cons, hd] at h
      injection h with h _
      subst h
      simpa using hd

theorem blanks_skip {w t : List Char} (hw : Blanks w) (ht : ∀ c cs, t = c :: cs → ¬ IsBlank c) : (w ++ t).dropWhile isBlank = t :=
  (span_unique (fun c hc => (isBlank_iff c).mpr (hw c hc)) (fun c cs h => by
    have := ht c cs h
    rw [← isBlank_iff] at this
    simpa using this)).2

/-! ## Signs -/

theorem takeSign_spec (t : List Char) :
    ∃ s, t = s ++ (takeSign t).2 ∧ (((takeSign t).1 = false ∧ Sign s False) ∨ ((takeSign t).1 = true ∧ Sign s True)) := by
  cases t with
  | nil => exact ⟨[], by simp [takeSign], Or.inl ⟨rfl, Or.inl ⟨rfl, id⟩⟩⟩
  | cons c cs =>
    simp only [takeSign]
    split
    · rename_i h; subst h; exact ⟨['+'], rfl, Or.inl ⟨rfl, Or.inr (Or.inl ⟨rfl, id⟩)⟩⟩
    · split
      · rename_i h; subst h; exact ⟨['-'], rfl, Or.inr ⟨rfl, Or.inr (Or.inr ⟨rfl, trivial⟩)⟩⟩
      · exact ⟨[], rfl, Or.inl ⟨rfl, Or.inl ⟨rfl, id⟩⟩⟩

theorem takeSign_unique {s t : List Char} (ht : ∀ c cs, t = c :: cs → c ≠ '+' ∧ c ≠ '-') :
    (Sign s False → takeSign (s ++ t) = (false, t)) ∧ (Sign s True → takeSign (s ++ t) = (true, t)) := by
  have h0 : takeSign t = (false, t) := by
    cases t with
    | nil => rfl
    | cons c cs => have := ht c cs rfl; simp [takeSign, this.1, this.2]
  constructor
  · rintro (⟨rfl, _⟩ | ⟨rfl, _⟩ | ⟨rfl, h⟩)
    · exact h0
    · simp [takeSign]
    · exact h.elim
  · rintro (⟨rfl, h⟩ | ⟨rfl, h⟩ | ⟨rfl, _⟩)
    · exact absurd trivial h
    · exact absurd trivial h
    · simp [takeSign]

theorem digit_ne {c : Char} (h : IsDigit c) : c ≠ '+' ∧ c ≠ '-' ∧ c ≠ '.' ∧ c ≠ 'e' ∧ c ≠ 'E' ∧ c ≠ ':' ∧ ¬ IsBlank c := by
  unfold IsDigit at h
  refine ⟨?_, ?_, ?_, ?_, ?_, ?_, ?_⟩
  case _ => rintro rfl; revert h; decide
  case _ => rintro rfl; revert h; decide
  case _ => rintro rfl; revert h; decide
  case _ => rintro rfl; revert h; decide
  case _ => rintro rfl; revert h; decide
  case _ => rintro rfl; revert h; decide
  case _ =>
    unfold IsBlank
    rintro (rfl | rfl | rfl | rfl | rfl | rfl) <;> revert h <;> decide

theorem not_digit {c : Char} (h : c = '+' ∨ c = '-' ∨ c = '.' ∨ c = 'e' ∨ c = 'E' ∨ c = ':' ∨ IsBlank c) : ¬ IsDigit c := by
  intro hd
  have := digit_ne hd
  tauto

theorem isDigit_false {c : Char} (h : ¬ IsDigit c) : c.isDigit = false := by
  rw [← isDigit_iff] at h; simpa using h

theorem digits_take (l : List Char) : Digits (l.takeWhile Char.isDigit) ∧
    ∀ c cs, l.dropWhile Char.isDigit = c :: cs → ¬ IsDigit c := by
  obtain ⟨_, h2, h3⟩ := span_split Char.isDigit l
  refine ⟨fun c hc => (isDigit_iff c).mp (h2 c hc), fun c cs h => ?_⟩
  have := h3 c cs h
  rw [← isDigit_iff]; simp [this]

theorem digits_span {l r : List Char} (hl : Digits l) (hr : ∀ c cs, r = c :: cs → ¬ IsDigit c) :
    (l ++ r).takeWhile Char.isDigit = l ∧ (l ++ r).dropWhile Char.isDigit = r :=
  span_unique (fun c hc => (isDigit_iff c).mpr (hl c hc)) (fun c cs h => isDigit_false (hr c cs h))

/-! ## Decimal numbers -/

theorem takeFrac_spec (t : List Char) :
    ∃ f, t = f ++ (takeFrac t).2 ∧ Digits (takeFrac t).1 ∧ (f = [] ∧ (takeFrac t).1 = [] ∨ f = '.' :: (takeFrac t).1) ∧
      (f = [] → ∀ c cs, (takeFrac t).2 = c :: cs → c ≠ '.') ∧ (f ≠ [] → ∀ c cs, (takeFrac t).2 = c :: cs → ¬ IsDigit c) := by
  cases t with
  | nil => exact ⟨[], rfl, by simp [takeFrac, Digits], Or.inl ⟨rfl, rfl⟩, by simp [takeFrac], by simp⟩
  | cons c cs =>
    simp only [takeFrac]
    split
    · rename_i h
      subst h
      refine ⟨'.' :: cs.takeWhile Char.isDigit, ?_, (digits_take cs).1, Or.inr rfl, by simp, fun _ => (digits_take cs).2⟩
      simp
    · rename_i h
      refine ⟨[], rfl, by simp [Digits], Or.inl ⟨rfl, rfl⟩, ?_, by simp⟩
      intro _ c' cs' h'
      injection h' with h' _
      subst h'
      exact h

theorem takeFrac_unique {f d r : List Char} (hd : Digits d) (hf : f = [] ∧ d = [] ∨ f = '.' :: d)
    (h1 : f = [] → ∀ c cs, r = c :: cs → c ≠ '.') (h2 : f ≠ [] → ∀ c cs, r = c :: cs → ¬ IsDigit c) :
    takeFrac (f ++ r) = (d, r) := by
  rcases hf with ⟨rfl, rfl⟩ | rfl
  · cases r with
    | nil => rfl
    | cons c cs => simp [takeFrac, h1 rfl c cs rfl]
  · have := digits_span hd (h2 (by simp))
    simp [takeFrac, this.1, this.2]

theorem takeExp_spec {t r : List Char} {e : Int} (h : takeExp true t = (some e, r)) :
    ∃ x, t = x ++ r ∧ Exponent x e ∧ (x = [] → ∀ c cs, r = c :: cs → c ≠ 'e' ∧ c ≠ 'E') ∧
      (x ≠ [] → ∀ c cs, r = c :: cs → ¬ IsDigit c) ∧ (x ≠ [] → 'e' ∈ x ∨ 'E' ∈ x) := by
  cases t with
  | nil =>
    simp only [takeExp] at h
    injection h with h1 h2
    injection h1 with h1
    subst h1; subst h2
    exact ⟨[], rfl, Or.inl ⟨rfl, rfl⟩, by simp, by simp, by simp⟩
  | cons c cs =>
    simp only [takeExp, Bool.true_and] at h
    split at h
    · rename_i hc
      obtain ⟨s, hs, hsign⟩ := takeSign_spec cs
      set neg := (takeSign cs).1
      set u := (takeSign cs).2
      obtain ⟨hd, hnd⟩ := digits_take u
      injection h with h1 h2
      split at h1
      · cases h1
      · rename_i hx
        injection h1 with h1
        have hc' : c = 'e' ∨ c = 'E' := by simpa using hc
        refine ⟨c :: (s ++ u.takeWhile Char.isDigit), ?_, Or.inr ⟨c, s, _, hc', hd, hx, rfl, ?_⟩, by simp, ?_, ?_⟩
        · rw [← h2, List.cons_append, List.append_assoc, List.takeWhile_append_dropWhile, ← hs]
        · rcases hsign with ⟨hn, hs'⟩ | ⟨hn, hs'⟩
          · left
            refine ⟨hs', ?_⟩
            rw [← h1, hn, natVal_eq]; rfl
          · right
            refine ⟨hs', ?_⟩
            rw [← h1, hn, natVal_eq]; rfl
        · intro _
          rw [← h2]
          exact hnd
        · intro _
          rcases hc' with rfl | rfl <;> simp
    · rename_i hc
      injection h with h1 h2
      injection h1 with h1
      subst h1; subst h2
      refine ⟨[], rfl, Or.inl ⟨rfl, rfl⟩, ?_, by simp, by simp⟩
      intro _ c' cs' h'
      injection h' with h' _
      subst h'
      simpa using hc

theorem takeExp_unique {x r : List Char} {e : Int} (he : Exponent x e)
    (h1 : x = [] → ∀ c cs, r = c :: cs → c ≠ 'e' ∧ c ≠ 'E') (h2 : x ≠ [] → ∀ c cs, r = c :: cs → ¬ IsDigit c) :
    takeExp true (x ++ r) = (some e, r) := by
  rcases he with ⟨rfl, rfl⟩ | ⟨c, s, y, hc, hd, hy, rfl, hv⟩
  · cases r with
    | nil => rfl
    | cons c cs => have := h1 rfl c cs rfl; simp [takeExp, this.1, this.2]
  · have hspan := digits_span hd (h2 (by simp))
    have hhead : ∀ c cs, y ++ r = c :: cs → c ≠ '+' ∧ c ≠ '-' := by
      intro c cs h
      cases y with
      | nil => exact absurd rfl hy
      | cons d y =>
        rw [List.cons_append] at h
        injection h with h _
        have := digit_ne (hd d (by simp))
        rw [← h]
        exact ⟨this.1, this.2.1⟩
    have hsg := takeSign_unique (s := s) hhead
    have hc' : (c = 'e' || c = 'E') = true := by simpa using hc
    rw [List.cons_append, List.append_assoc]
    simp only [takeExp, hc', Bool.true_and, if_true]
    rcases hv with ⟨hs, rfl⟩ | ⟨hs, rfl⟩
    · rw [hsg.1 hs]
      simp [hspan.1, hspan.2, hy, natVal_eq]
    · rw [hsg.2 hs]
      simp [hspan.1, hspan.2, hy, natVal_eq]

theorem sign_no {s : List Char} {neg : Prop} (h : Sign s neg) : '.' ∉ s ∧ 'e' ∉ s ∧ 'E' ∉ s := by
  rcases h with ⟨rfl, _⟩ | ⟨rfl, _⟩ | ⟨rfl, _⟩ <;> decide

theorem digits_no {l : List Char} (h : Digits l) : '.' ∉ l ∧ 'e' ∉ l ∧ 'E' ∉ l := by
  refine ⟨fun hc => ?_, fun hc => ?_, fun hc => ?_⟩
  · exact (digit_ne (h _ hc)).2.2.1 rfl
  · exact (digit_ne (h _ hc)).2.2.2.1 rfl
  · exact (digit_ne (h _ hc)).2.2.2.2.1 rfl

theorem exponent_head {e : List Char} {k : Int} (h : Exponent e k) : ∀ c cs, e = c :: cs → c = 'e' ∨ c = 'E' := by
  intro c cs hc
  rcases h with ⟨rfl, _⟩ | ⟨c', s, y, hc', _, _, rfl, _⟩
  · cases hc
  · injection hc with hc _
    rw [← hc]; exact hc'

/-- The scanner accepts exactly the decimal numbers, and stops where they cannot be continued. -/
theorem scanFloat_iff {t rest : List Char} {v : ℚ} :
    scanFloat t = (some v, rest) ↔ ∃ x, t = x ++ rest ∧ IsFloat x v ∧ FloatEnds x rest := by
  constructor
  · intro h
    obtain ⟨s, hs, hsign⟩ := takeSign_spec t
    simp only [scanFloat] at h
    set neg := (takeSign t).1
    set t1 := (takeSign t).2
    obtain ⟨hi, hnd⟩ := digits_take t1
    have hsplit := (span_split Char.isDigit t1).1
    set i := t1.takeWhile Char.isDigit
    set t2 := t1.dropWhile Char.isDigit
    obtain ⟨f, hf, hd, hfd, hf1, hf2⟩ := takeFrac_spec t2
    set d := (takeFrac t2).1
    set t3 := (takeFrac t2).2
    injection h with h1 h2
    split at h1
    · cases h1
    · rename_i hm
      have hdec : decide (i ++ d ≠ []) = true := decide_eq_true hm
      rw [hdec] at h1 h2
      obtain ⟨k, hk, hv⟩ := Option.map_eq_some_iff.mp h1
      have hexp : takeExp true t3 = (some k, rest) := by rw [← h2, ← hk]
      obtain ⟨e, he, hE, he1, he2, he3⟩ := takeExp_spec hexp
      refine ⟨s ++ i ++ f ++ e, ?_, ⟨s, i, f, d, e, k, hi, hd, hm, hfd, hE, rfl, ?_⟩, ?_⟩
      · rw [hs]
        rw [hsplit, hf, he]
        simp
      · rcases hsign with ⟨hn, hs'⟩ | ⟨hn, hs'⟩
        · left
          refine ⟨hs', ?_⟩
          rw [← hv, hn, natVal_eq]; simp
        · right
          refine ⟨hs', ?_⟩
          rw [← hv, hn, natVal_eq]; simp
      · intro c cs hr
        by_cases hee : e = []
        · rw [hee, List.nil_append] at he
          by_cases hff : f = []
          · rw [hff, List.nil_append] at hf
            refine ⟨hnd c cs (by rw [hf, he, hr]), ?_, ?_⟩
            · intro hc; exact absurd hc (hf1 hff c cs (by rw [he, hr]))
            · intro hc
              have := he1 hee c cs hr
              rcases hc with hc | hc
              · exact absurd hc this.1
              · exact absurd hc this.2
          · refine ⟨hf2 hff c cs (by rw [he, hr]), ?_, ?_⟩
            · intro _
              left
              rcases hfd with ⟨h, _⟩ | h
              · exact absurd h hff
              · rw [h]; simp
            · intro hc
              have := he1 hee c cs hr
              rcases hc with hc | hc
              · exact absurd hc this.1
              · exact absurd hc this.2
        · have hin : 'e' ∈ s ++ i ++ f ++ e ∨ 'E' ∈ s ++ i ++ f ++ e := by
            rcases he3 hee with h | h
            · left; simp [h]
            · right; simp [h]
          exact ⟨he2 hee c cs hr, fun _ => Or.inr hin, fun _ => hin⟩
  · rintro ⟨x, rfl, ⟨s, i, f, d, e, k, hi, hd, hm, hfd, hE, rfl, hv⟩, hends⟩
    have hsign : Sign s False ∨ Sign s True := by
      rcases hv with ⟨h, _⟩ | ⟨h, _⟩
      · exact Or.inl h
      · exact Or.inr h
    have hsno : '.' ∉ s ∧ 'e' ∉ s ∧ 'E' ∉ s := by rcases hsign with h | h <;> exact sign_no h
    have hino := digits_no hi
    have hdno := digits_no hd
    have hfno : 'e' ∉ f ∧ 'E' ∉ f := by
      rcases hfd with ⟨rfl, _⟩ | rfl
      · simp
      · simp only [List.mem_cons, not_or]
        exact ⟨⟨by decide, hdno.2.1⟩, ⟨by decide, hdno.2.2⟩⟩
    -- the text behind the fraction
    have r1 : e = [] → ∀ c cs, rest = c :: cs → c ≠ 'e' ∧ c ≠ 'E' := by
      intro he c cs hr
      obtain ⟨_, _, h3⟩ := hends c cs hr
      have hno : ¬ ('e' ∈ s ++ i ++ f ++ e ∨ 'E' ∈ s ++ i ++ f ++ e) := by
        rw [he]
        simp [hsno, hino, hfno]
      exact ⟨fun hc => hno (h3 (Or.inl hc)), fun hc => hno (h3 (Or.inr hc))⟩
    have r2 : e ≠ [] → ∀ c cs, rest = c :: cs → ¬ IsDigit c := fun _ c cs hr => (hends c cs hr).1
    have hE' := takeExp_unique hE r1 r2
    have hhead : ∀ c cs, e ++ rest = c :: cs → ¬ IsDigit c := by
      intro c cs h
      cases e with
      | nil => exact (hends c cs h).1
      | cons c' e' =>
        rw [List.cons_append] at h
        injection h with h _
        have := exponent_head hE c' e' rfl
        rw [← h]
        rcases this with h | h
        · exact not_digit (Or.inr (Or.inr (Or.inr (Or.inl h))))
        · exact not_digit (Or.inr (Or.inr (Or.inr (Or.inr (Or.inl h)))))
    have q1 : f = [] → ∀ c cs, e ++ rest = c :: cs → c ≠ '.' := by
      intro hf c cs h hc
      cases e with
      | nil =>
        have h2 := (hends c cs h).2.1 hc
        rw [hf] at h2
        simp [hsno, hino] at h2
      | cons c' e' =>
        rw [List.cons_append] at h
        injection h with h _
        have := exponent_head hE c' e' rfl
        rw [h, hc] at this
        rcases this with h | h <;> exact absurd h (by decide)
    have hF := takeFrac_unique (r := e ++ rest) hd hfd q1 (fun _ => hhead)
    have hI : ∀ c cs, f ++ (e ++ rest) = c :: cs → ¬ IsDigit c := by
      intro c cs h
      rcases hfd with ⟨rfl, _⟩ | rfl
      · exact hhead c cs h
      · rw [List.cons_append] at h
        injection h with h _
        rw [← h]
        exact not_digit (Or.inr (Or.inr (Or.inl rfl)))
    have hspan := digits_span hi hI
    have hS : ∀ c cs, i ++ (f ++ (e ++ rest)) = c :: cs → c ≠ '+' ∧ c ≠ '-' := by
      intro c cs h
      cases i with
      | nil =>
        rcases hfd with ⟨rfl, rfl⟩ | rfl
        · exact absurd rfl hm
        · rw [List.nil_append, List.cons_append] at h
          injection h with h _
          rw [← h]
          decide
      | cons c' i' =>
        rw [List.cons_append] at h
        injection h with h _
        have := digit_ne (hi c' (by simp))
        rw [← h]
        exact ⟨this.1, this.2.1⟩
    have hsg := takeSign_unique (s := s) hS
    have hdec : decide (i ++ d ≠ []) = true := decide_eq_true hm
    have hassoc : s ++ i ++ f ++ e ++ rest = s ++ (i ++ (f ++ (e ++ rest))) := by simp
    rw [hassoc]
    rcases hv with ⟨hs, rfl⟩ | ⟨hs, rfl⟩
    · simp only [scanFloat, hsg.1 hs, hspan.1, hspan.2, hF, hdec, hE', if_neg hm, natVal_eq]
      simp
    · simp only [scanFloat, hsg.2 hs, hspan.1, hspan.2, hF, hdec, hE', if_neg hm, natVal_eq]
      simp

/-! ## Counts -/

theorem scanUShort_iff {t rest : List Char} {v : Nat} :
    scanUShort t = (true, v, rest) ↔ ∃ x, t = x ++ rest ∧ IsCount x v ∧ CountEnds rest := by
  constructor
  · intro h
    obtain ⟨s, hs, hsign⟩ := takeSign_spec t
    simp only [scanUShort] at h
    set neg := (takeSign t).1
    set t1 := (takeSign t).2
    obtain ⟨hi, hnd⟩ := digits_take t1
    have hsplit := (span_split Char.isDigit t1).1
    set x := t1.takeWhile Char.isDigit
    split at h
    · injection h with h; cases h
    · rename_i hx
      split at h
      · injection h with h; cases h
      · rename_i hle
        injection h with _ h
        injection h with hv hr
        rw [natVal_eq] at hle hv
        refine ⟨s ++ x, ?_, ⟨s, x, hi, hx, by omega, rfl, ?_⟩, ?_⟩
        · rw [List.append_assoc, ← hr, ← hsplit, ← hs]
        · rcases hsign with ⟨hn, hs'⟩ | ⟨hn, hs'⟩
          · left; refine ⟨hs', ?_⟩; rw [← hv, hn]; rfl
          · right; refine ⟨hs', ?_⟩; rw [← hv, hn]; rfl
        · intro c cs h
          exact hnd c cs (by rw [hr, h])
  · rintro ⟨y, rfl, ⟨s, x, hd, hx, hlt, rfl, hv⟩, hends⟩
    have hspan := digits_span hd hends
    have hS : ∀ c cs, x ++ rest = c :: cs → c ≠ '+' ∧ c ≠ '-' := by
      intro c cs h
      cases x with
      | nil => exact absurd rfl hx
      | cons c' x' =>
        rw [List.cons_append] at h
        injection h with h _
        have := digit_ne (hd c' (by simp))
        rw [← h]
        exact ⟨this.1, this.2.1⟩
    have hsg := takeSign_unique (s := s) hS
    have hle : ¬ natVal x > 65535 := by rw [natVal_eq]; omega
    rw [List.append_assoc]
    rcases hv with ⟨hs, rfl⟩ | ⟨hs, rfl⟩
    · simp only [scanUShort, hsg.1 hs, hspan.1, hspan.2, if_neg hx, if_neg hle]; simp [natVal_eq]
    · simp only [scanUShort, hsg.2 hs, hspan.1, hspan.2, if_neg hx, if_neg hle]; simp [natVal_eq]

end Verif
