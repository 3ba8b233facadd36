import Mathlib.Data.Rat.Defs
import Mathlib.Algebra.Order.Ring.Rat
import Mathlib.Algebra.Field.Rat
/-!
# Grammar of record files

A declarative grammar of the texts, independent of the scanner.
-/

namespace Verif.Spec

/-- A decimal digit. -/
def IsDigit (c : Char) : Prop := 48 ≤ c.toNat ∧ c.toNat ≤ 57

/-- A white space character. -/
def IsBlank (c : Char) : Prop := c = ' ' ∨ c = '\t' ∨ c = '\n' ∨ c = '\x0b' ∨ c = '\x0c' ∨ c = '\r'

/-- A possibly empty string of digits. -/
def Digits (l : List Char) : Prop := ∀ c ∈ l, IsDigit c

/-- A possibly empty string of blanks. -/
def Blanks (l : List Char) : Prop := ∀ c ∈ l, IsBlank c

/-- Value of a string of digits, least significant digit last. -/
def value : List Char → Nat
  | [] => 0
  | c :: cs => (c.toNat - 48) * 10 ^ cs.length + value cs

/-- An optional sign and whether it is a minus. -/
def Sign (s : List Char) (neg : Prop) : Prop := (s = [] ∧ ¬neg) ∨ (s = ['+'] ∧ ¬neg) ∨ (s = ['-'] ∧ neg)

/-- An optional exponent and its value. -/
def Exponent (t : List Char) (e : Int) : Prop :=
  (t = [] ∧ e = 0) ∨
  ∃ (c : Char) (s x : List Char), (c = 'e' ∨ c = 'E') ∧ Digits x ∧ x ≠ [] ∧ t = c :: (s ++ x) ∧
    (Sign s False ∧ e = value x ∨ Sign s True ∧ e = -(value x : Int))

/-- A decimal number: optional sign, digits with an optional decimal point, at least one digit, optional exponent. -/
def IsFloat (t : List Char) (v : ℚ) : Prop :=
  ∃ (s i f d e : List Char) (k : Int), Digits i ∧ Digits d ∧ i ++ d ≠ [] ∧ (f = [] ∧ d = [] ∨ f = '.' :: d) ∧
    Exponent e k ∧ t = s ++ i ++ f ++ e ∧
    (Sign s False ∧ v = (value (i ++ d) : ℚ) / 10 ^ d.length * 10 ^ k ∨
     Sign s True ∧ v = -((value (i ++ d) : ℚ) / 10 ^ d.length * 10 ^ k))

/-- The text after a decimal number does not continue it. -/
def FloatEnds (t rest : List Char) : Prop :=
  ∀ (c : Char) (cs : List Char), rest = c :: cs → ¬ IsDigit c ∧ (c = '.' → '.' ∈ t ∨ 'e' ∈ t ∨ 'E' ∈ t) ∧
    (c = 'e' ∨ c = 'E' → 'e' ∈ t ∨ 'E' ∈ t)

/-- A 16 bit count: a minus sign counts down from 2^16. -/
def IsCount (t : List Char) (v : Nat) : Prop :=
  ∃ s x : List Char, Digits x ∧ x ≠ [] ∧ value x < 65536 ∧ t = s ++ x ∧
    (Sign s False ∧ v = value x ∨ Sign s True ∧ v = (65536 - value x) % 65536)

/-- The text after a count does not continue it. -/
def CountEnds (rest : List Char) : Prop := ∀ (c : Char) (cs : List Char), rest = c :: cs → ¬ IsDigit c

/-- `t` begins with a location record of value `(a, b)`, and `rest` follows. -/
def LocationText (t : List Char) (a b : ℚ) (rest : List Char) : Prop :=
  ∃ w1 x w2 w3 y : List Char, Blanks w1 ∧ Blanks w2 ∧ Blanks w3 ∧ IsFloat x a ∧ IsFloat y b ∧ FloatEnds y rest ∧
    t = w1 ++ x ++ w2 ++ [':'] ++ w3 ++ y ++ rest

/-- `t` begins with an orbit record, and `rest` follows. -/
def OrbitText (t : List Char) (alt inc : ℚ) (planes sats : Nat) (rest : List Char) : Prop :=
  ∃ w1 x w2 w3 y w4 w5 p w6 w7 q : List Char,
    Blanks w1 ∧ Blanks w2 ∧ Blanks w3 ∧ Blanks w4 ∧ Blanks w5 ∧ Blanks w6 ∧ Blanks w7 ∧
    IsFloat x alt ∧ IsFloat y inc ∧ IsCount p planes ∧ IsCount q sats ∧ CountEnds rest ∧
    t = w1 ++ x ++ w2 ++ [':'] ++ w3 ++ y ++ w4 ++ [':'] ++ w5 ++ p ++ w6 ++ [':'] ++ w7 ++ q ++ rest

/-- The longest sequence of records a text begins with: `P t r rest` says that `t` begins with the record `r`. -/
inductive Leading {α : Type} (P : List Char → α → List Char → Prop) : List Char → List α → Prop
  | stop {t : List Char} : (¬ ∃ r rest, P t r rest) → Leading P t []
  | more {t rest : List Char} {r : α} {rs : List α} : P t r rest → Leading P rest rs → Leading P t (r :: rs)

/-- A number with at most six significant decimal digits. -/
def SixDigits (q : ℚ) : Prop := ∃ (m : Int) (e : Int), |m| < 10 ^ 6 ∧ q = m * 10 ^ e

end Verif.Spec
